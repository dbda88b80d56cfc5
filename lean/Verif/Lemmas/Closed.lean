import Verif.Lemmas.Like
import Verif.Lemmas.WriteData
import Verif.Spec.Closed

/-! # The evaluation of closed expressions depends on nothing but the depth -/

namespace Over

mutual
theorem Value.data_mapIds : ∀ v : Value, v.mapIds (fun _ => 0) = v.data
  | .null => rfl
  | .bool _ => rfl
  | .int _ => rfl
  | .frac _ => rfl
  | .str _ => rfl
  | .arr i t vs => by simp only [Value.mapIds, Value.data, Value.dataL_mapIds vs]
  | .tup i t vs => by simp only [Value.mapIds, Value.data, Value.dataL_mapIds vs]
  | .obj o => by simp only [Value.mapIds, Value.data, Obj.data_mapIds o]
theorem Value.dataL_mapIds : ∀ vs : List Value, Value.mapIdsL (fun _ => 0) vs = Value.dataL vs
  | [] => by simp only [Value.mapIdsL, Value.dataL]
  | v :: vs => by simp only [Value.mapIdsL, Value.dataL, Value.data_mapIds v, Value.dataL_mapIds vs]
theorem Pair.dataL_mapIds : ∀ ps : List Pair, Pair.mapIdsL (fun _ => 0) ps = Pair.dataL ps
  | [] => by simp only [Pair.mapIdsL, Pair.dataL]
  | .mk n v :: ps => by simp only [Pair.mapIdsL, Pair.dataL, Value.data_mapIds v, Pair.dataL_mapIds ps]
theorem Obj.dataP_mapIds : ∀ o : Option Obj, Obj.mapIdsP (fun _ => 0) o = Obj.dataP o
  | none => by simp only [Obj.mapIdsP, Obj.dataP]
  | some o => by simp only [Obj.mapIdsP, Obj.dataP, Obj.data_mapIds o]
theorem Obj.data_mapIds : ∀ o : Obj, o.mapIds (fun _ => 0) = o.data
  | .mk i ps par => by simp only [Obj.mapIds, Obj.data, Pair.dataL_mapIds ps, Obj.dataP_mapIds par]
end

/-- Values with the same data have the same form. -/
inductive DataForm : Value → Value → Prop
  | null : DataForm .null .null
  | bool (b : Bool) : DataForm (.bool b) (.bool b)
  | int (i : Int) : DataForm (.int i) (.int i)
  | frac (q : Rat) : DataForm (.frac q) (.frac q)
  | str (s : Str) : DataForm (.str s) (.str s)
  | arr (i i' : Nat) (t : Ty) (vs vs' : List Value) : Value.dataL vs = Value.dataL vs' → DataForm (.arr i t vs) (.arr i' t vs')
  | tup (i i' : Nat) (t : List Ty) (vs vs' : List Value) : Value.dataL vs = Value.dataL vs' →
      DataForm (.tup i t vs) (.tup i' t vs')
  | obj (o o' : Obj) : o.data = o'.data → DataForm (.obj o) (.obj o')

theorem dataForm {v v' : Value} (h : v.data = v'.data) : DataForm v v' := by
  cases v <;> cases v' <;> simp only [Value.data, reduceCtorEq, Value.bool.injEq, Value.int.injEq, Value.frac.injEq,
    Value.str.injEq, Value.arr.injEq, Value.tup.injEq, Value.obj.injEq] at h <;> try subst h
  all_goals first
    | constructor
    | (obtain ⟨h1, rfl, h2⟩ := h; constructor; assumption)
  exact h

section
variable {f f' : Option Str} {α β α' β' : Type}

/-- Two actions in two files: whatever the states, both yield corresponding results or fail for the same reason, unless the
second exceeds the depth. -/
def Alike (f f' : Option Str) (Q : α → α' → Prop) (m : EM α) (m' : EM α') : Prop :=
  ∀ st st', m' st' = .error (.sem f' .maxDepth) ∨
    (∃ a s a' s', m st = .ok (a, s) ∧ m' st' = .ok (a', s') ∧ Q a a') ∨
    ∃ k, m st = .error (.sem f k) ∧ m' st' = .error (.sem f' k)

theorem Alike.bind {Q : α → α' → Prop} {R : β → β' → Prop} {m : EM α} {m' : EM α'} {k : α → EM β} {k' : α' → EM β'}
    (h : Alike f f' Q m m') (hk : ∀ a a', Q a a' → Alike f f' R (k a) (k' a')) : Alike f f' R (m >>= k) (m' >>= k') := by
  intro st st'
  rcases h st st' with h1 | ⟨a, s, a', s', h1, h2, hq⟩ | ⟨e, h1, h2⟩
  · exact .inl (EM.bind_err h1)
  · rw [EM.bind_ok h1, EM.bind_ok h2]
    exact hk a a' hq s s'
  · exact .inr (.inr ⟨e, EM.bind_err h1, EM.bind_err h2⟩)

theorem Alike.pure {Q : α → α' → Prop} {a : α} {a' : α'} (h : Q a a') : Alike f f' Q (pure a) (pure a') :=
  fun st st' => .inr (.inl ⟨a, st, a', st', rfl, rfl, h⟩)

theorem Alike.fail {Q : α → α' → Prop} (k : SemKind) : Alike f f' Q (EM.fail f k) (EM.fail f' k) :=
  fun _ _ => .inr (.inr ⟨k, rfl, rfl⟩)

theorem Alike.ite {Q : α → α' → Prop} {c c' : Prop} [Decidable c] [Decidable c'] {a b : EM α} {a' b' : EM α'} (hc : c ↔ c')
    (h1 : Alike f f' Q a a') (h2 : Alike f f' Q b b') :
    Alike f f' Q (if c then a else b) (if c' then a' else b') := by
  by_cases h : c
  · rw [if_pos h, if_pos (hc.1 h)]; exact h1
  · rw [if_neg h, if_neg (fun x => h (hc.2 x))]; exact h2

theorem Alike.fresh : Alike f f' (fun _ _ => True) EM.fresh EM.fresh :=
  fun _ _ => .inr (.inl ⟨_, _, _, _, rfl, rfl, trivial⟩)

theorem Alike.keywordId (k : IncKind) : Alike f f' (fun _ _ => True) (EM.keywordId k) (EM.keywordId k) := by
  intro st st'
  obtain ⟨i, s, h, -⟩ := keywordId_step k st
  obtain ⟨i', s', h', -⟩ := keywordId_step k st'
  exact .inr (.inl ⟨_, _, _, _, h, h', trivial⟩)

theorem Alike.depthCheck {d d' : Nat} (h : d ≤ d') : Alike f f' (fun _ _ => True) (depthCheck f d) (depthCheck f' d') := by
  intro st st'
  unfold Over.depthCheck
  by_cases h1 : d' > 64
  · left; rw [if_pos h1]; rfl
  · rw [if_neg h1, if_neg (by omega)]
    exact .inr (.inl ⟨_, _, _, _, rfl, rfl, trivial⟩)

/-- Two values with the same data. -/
def SameData (v v' : Value) : Prop := v.data = v'.data

theorem SameData.getType {v v' : Value} (h : SameData v v') : v.getType = v'.getType := Value.getType_of_data_eq h

theorem alike_applyBin (op : BinOp) {a b a' b' : Value} (ha : SameData a a') (hb : SameData b b') :
    Alike f f' SameData (applyBin f op a b) (applyBin f' op a' b') := by
  have h := binSem_mapIds (fun _ => 0) op a b
  have h' := binSem_mapIds (fun _ => 0) op a' b'
  simp only [Value.data_mapIds, Value.dataL_mapIds] at h h'
  rw [show a.data = _ from ha, show b.data = _ from hb, h'] at h
  unfold applyBin
  cases e : binSem op a b <;> cases e' : binSem op a' b' <;> rw [e, e'] at h <;>
    simp only [BinRes.val.injEq, BinRes.newArr.injEq, BinRes.bad.injEq, reduceCtorEq] at h
  · exact .pure h.symm
  · obtain ⟨rfl, h⟩ := h
    exact .bind .fresh fun i j _ => .pure (by
      show Value.data _ = Value.data _
      simp only [Value.data, h])
  · obtain ⟨rfl, rfl⟩ := h; exact .fail _
  · exact .fail _

theorem alike_applyUn (op : UnOp) {a a' : Value} (ha : SameData a a') :
    Alike f f' SameData (applyUn f op a) (applyUn f' op a') := by
  cases dataForm ha <;> cases op <;> simp only [applyUn, Value.getType] <;> first | exact .fail _ | exact .pure rfl

/-- Operators with operands of the same data. -/
inductive DataOps : List (BinOp × Value) → List (BinOp × Value) → Prop
  | nil : DataOps [] []
  | cons {op : BinOp} {v v' : Value} {r r' : List (BinOp × Value)} : SameData v v' → DataOps r r' →
      DataOps ((op, v) :: r) ((op, v') :: r')

theorem alike_sumLeft : ∀ {l l' : List (BinOp × Value)}, DataOps l l' → ∀ {v v' : Value}, SameData v v' →
    Alike f f' SameData (sumLeft f v l) (sumLeft f' v' l')
  | _, _, .nil, _, _, h => .pure h
  | _, _, .cons h1 h2, _, _, h => .bind (alike_applyBin _ h h1) fun _ _ h => alike_sumLeft h2 h

theorem dataL_get {vs vs' : List Value} (h : Value.dataL vs = Value.dataL vs') (n : Nat) :
    (vs[n]? = none ∧ vs'[n]? = none) ∨ ∃ a a', vs[n]? = some a ∧ vs'[n]? = some a' ∧ SameData a a' := by
  rw [Value.dataL_eq, Value.dataL_eq] at h
  have h1 : (vs.map Value.data)[n]? = (vs'.map Value.data)[n]? := by rw [h]
  simp only [List.getElem?_map] at h1
  cases e : vs[n]? <;> cases e' : vs'[n]? <;> rw [e, e'] at h1 <;> simp at h1
  · exact .inl ⟨rfl, rfl⟩
  · exact .inr ⟨_, _, rfl, rfl, h1⟩

theorem alike_evalIndex (oob : Nat → OverError) {vs vs' : List Value} {i i' : Value} (h : Value.dataL vs = Value.dataL vs')
    (hi : SameData i i') : Alike f f' SameData (evalIndex f oob vs i) (evalIndex f' oob vs' i') := by
  cases dataForm hi <;> simp only [evalIndex, Value.getType] <;> try exact .fail _
  split
  · rename_i i _
    rcases dataL_get h i.toNat with ⟨h1, h2⟩ | ⟨a, a', h1, h2, h3⟩
    · rw [h1, h2]; exact .fail _
    · rw [h1, h2]; exact .pure h3
  · exact .fail _

theorem dataP_find {ps ps' : List Pair} (h : Pair.dataL ps = Pair.dataL ps') (x : Str) :
    (ps.find? (fun p => p.field == x) = none ∧ ps'.find? (fun p => p.field == x) = none) ∨
    ∃ p p', ps.find? (fun p => p.field == x) = some p ∧ ps'.find? (fun p => p.field == x) = some p' ∧
      SameData p.value p'.value := by
  induction ps generalizing ps' with
  | nil => cases ps' with
    | nil => exact .inl ⟨rfl, rfl⟩
    | cons p _ => cases p; simp [Pair.dataL] at h
  | cons p r ih =>
    obtain ⟨n, v⟩ := p
    cases ps' with
    | nil => simp [Pair.dataL] at h
    | cons p' r' =>
      obtain ⟨n', v'⟩ := p'
      simp only [Pair.dataL, List.cons.injEq, Pair.mk.injEq] at h
      obtain ⟨⟨rfl, h1⟩, h2⟩ := h
      by_cases hn : n = x
      · subst hn
        exact .inr ⟨.mk n v, .mk n v', by simp [Pair.field], by simp [Pair.field], h1⟩
      · have e : ((Pair.mk n v).field == x) = false := by simpa [Pair.field] using hn
        have e' : ((Pair.mk n v').field == x) = false := by simpa [Pair.field] using hn
        simp only [List.find?_cons, e, e']
        exact ih h2

theorem dataP_names {ps ps' : List Pair} (h : Pair.dataL ps = Pair.dataL ps') : ps.map Pair.field = ps'.map Pair.field := by
  rw [Pair.dataL_eq, Pair.dataL_eq] at h
  rw [← Pair.map_field_data ps, h, Pair.map_field_data]

theorem dataP_snoc {ps ps' : List Pair} (h : Pair.dataL ps = Pair.dataL ps') {v v' : Value} (hv : SameData v v') (x : Str) :
    Pair.dataL (ps ++ [.mk x v]) = Pair.dataL (ps' ++ [.mk x v']) := by
  rw [Pair.dataL_eq, Pair.dataL_eq] at *
  simp only [List.map_append, h, List.map_cons, List.map_nil, Pair.data, Pair.field, Pair.value, show v.data = _ from hv]

/-- The value of a name that is neither a global nor a field, or of a field of a corresponding object. -/
theorem alike_evalName {ps ps' : List Pair} {x : Str} (hx : (x.head? != some '@') = true)
    (h : Pair.dataL ps = Pair.dataL ps' ∨ noField x = true) : Alike f f' SameData (evalName f ps x) (evalName f' ps' x) := by
  have hx' : x.head? ≠ some '@' := by simpa using hx
  have kw : ∀ k, Alike f f' SameData (do let i ← EM.keywordId k; pure (.obj (.mk i [] none)) : EM Value)
      (do let i ← EM.keywordId k; pure (.obj (.mk i [] none)) : EM Value) := fun k =>
    .bind (.keywordId k) fun i j _ => .pure (by show Value.data _ = Value.data _; simp only [Value.data, Obj.data])
  unfold evalName
  rw [if_neg hx', if_neg hx']
  by_cases h1 : x = c!"null"
  · simp only [if_pos h1]; exact .pure rfl
  by_cases h2 : x = c!"true"
  · simp only [if_neg h1, if_pos h2]; exact .pure rfl
  by_cases h3 : x = c!"false"
  · simp only [if_neg h1, if_neg h2, if_pos h3]; exact .pure rfl
  by_cases h4 : x = c!"Obj"
  · simp only [if_neg h1, if_neg h2, if_neg h3, if_pos h4]; exact kw _
  by_cases h5 : x = c!"Str"
  · simp only [if_neg h1, if_neg h2, if_neg h3, if_neg h4, if_pos h5]; exact kw _
  by_cases h6 : x = c!"Arr"
  · simp only [if_neg h1, if_neg h2, if_neg h3, if_neg h4, if_neg h5, if_pos h6]; exact kw _
  by_cases h7 : x = c!"Tup"
  · simp only [if_neg h1, if_neg h2, if_neg h3, if_neg h4, if_neg h5, if_neg h6, if_pos h7]; exact kw _
  by_cases h8 : x = c!"@"
  · subst h8; exact absurd rfl hx'
  simp only [if_neg h1, if_neg h2, if_neg h3, if_neg h4, if_neg h5, if_neg h6, if_neg h7, if_neg h8]
  rcases h with h | h
  · rcases dataP_find h x with ⟨e1, e2⟩ | ⟨p, p', e1, e2, e3⟩
    · rw [e1, e2]; exact .fail _
    · rw [e1, e2]; exact .pure e3
  · simp [noField, reservedWords, hx', h1, h2, h3, h4, h5, h6, h7, h8] at h

section
variable {fs fs' : FS} {stack stack' : List Str} {load load' : Loader}

mutual
theorem alike_term : ∀ (t : Term), t.plain = true → ∀ {ps ps' : List Pair} {d d' : Nat}, d ≤ d' →
    (Pair.dataL ps = Pair.dataL ps' ∨ t.usesNoField = true) →
    Alike f f' SameData (evalTerm fs f stack load t ps d) (evalTerm fs' f' stack' load' t ps' d')
  | .str s, _, _, _, _, _, _, _ => .pure rfl
  | .int n, _, _, _, _, _, _, _ => .pure rfl
  | .frac q, _, _, _, _, _, _, _ => .pure rfl
  | .name x, hg, ps, ps', _, _, _, h => by
    simp only [Term.plain] at hg
    simp only [Term.usesNoField] at h
    simp only [evalTerm]
    exact alike_evalName hg h
  | .dot x t, hg, ps, ps', d, d', hd, h => by
    simp only [Term.plain, Bool.and_eq_true] at hg
    simp only [Term.usesNoField, Bool.and_eq_true] at h
    simp only [evalTerm]
    refine .bind (alike_evalName hg.1 (h.imp_right And.left)) (fun v v' hv => ?_)
    cases dataForm hv with
    | arr i i' ty vs vs' hvs =>
      exact .bind (alike_term t hg.2 (by omega) (h.imp_right And.right)) (fun i i' hi => alike_evalIndex _ hvs hi)
    | tup i i' ty vs vs' hvs =>
      exact .bind (alike_term t hg.2 (by omega) (h.imp_right And.right)) (fun i i' hi => alike_evalIndex _ hvs hi)
    | obj o o' ho =>
      refine .ite Iff.rfl (.fail _) (.ite Iff.rfl (.fail _) ?_)
      refine alike_term t hg.2 (by omega) (.inl ?_)
      cases o; cases o'
      simp only [Obj.data, Obj.mk.injEq] at ho
      exact ho.2.1
    | _ => exact .fail _
  | .neg t, hg, ps, ps', d, d', hd, h => by
    simp only [evalTerm]
    exact .bind (alike_term t (by simpa only [Term.plain] using hg) (by omega) (by simpa only [Term.usesNoField] using h))
      (fun v v' hv => alike_applyUn _ hv)
  | .pos t, hg, ps, ps', d, d', hd, h => by
    simp only [evalTerm]
    exact .bind (alike_term t (by simpa only [Term.plain] using hg) (by omega) (by simpa only [Term.usesNoField] using h))
      (fun v v' hv => alike_applyUn _ hv)
  | .arr es, hg, ps, ps', d, d', hd, h => by
    simp only [evalTerm]
    refine .bind (.depthCheck (by omega)) (fun _ _ _ => .bind (alike_elems es (by simpa only [Term.plain] using hg) (by omega)
      (by simpa only [Term.usesNoField] using h)) (fun x x' hx => ?_))
    obtain ⟨vs, t⟩ := x
    obtain ⟨vs', t'⟩ := x'
    obtain ⟨h1, rfl⟩ : Value.dataL vs = Value.dataL vs' ∧ t = t' := hx
    exact .bind .fresh fun i j _ => .pure (by
      show Value.data _ = Value.data _
      simp only [Value.data, h1])
  | .tup es, hg, ps, ps', d, d', hd, h => by
    simp only [evalTerm]
    refine .bind (.depthCheck (by omega)) (fun _ _ _ => .bind (alike_items es (by simpa only [Term.plain] using hg) (by omega)
      (by simpa only [Term.usesNoField] using h)) (fun vs vs' hx => ?_))
    exact .bind .fresh fun i j hij => .pure (by
      show Value.data _ = Value.data _
      have hx' : vs.map Value.data = vs'.map Value.data := by rw [← Value.dataL_eq, ← Value.dataL_eq]; exact hx
      simp only [Value.data, show Value.dataL vs = _ from hx, Value.map_getType_of_dataL_eq hx'])
  | .obj fds, hg, ps, ps', d, d', hd, _ => by
    simp only [evalTerm]
    refine .bind (.depthCheck (by omega)) (fun _ _ _ => .bind (alike_fields fds (by simpa only [Term.plain] using hg)
      (by omega) rfl rfl) (fun x x' hx => ?_))
    obtain ⟨q, r⟩ := x
    obtain ⟨q', r'⟩ := x'
    obtain ⟨h1, h2⟩ : Pair.dataL q = Pair.dataL q' ∧ Obj.dataP r = Obj.dataP r' := hx
    exact .bind .fresh fun i j hij => .pure (by
      show Value.data _ = Value.data _
      simp only [Value.data, Obj.data, h1, h2])
  | .incl e, hg, _, _, _, _, _, _ => by simp [Term.plain] at hg
  | .inclAs k e, hg, _, _, _, _, _, _ => by simp [Term.plain] at hg
termination_by structural t => t
theorem alike_expr : ∀ (e : Expr), e.plain = true → ∀ {ps ps' : List Pair} {d d' : Nat}, d ≤ d' →
    (Pair.dataL ps = Pair.dataL ps' ∨ e.usesNoField = true) →
    Alike f f' SameData (evalExpr fs f stack load e ps d) (evalExpr fs' f' stack' load' e ps' d')
  | .mk t r, hg, ps, ps', d, d', hd, h => by
    simp only [Expr.plain, Bool.and_eq_true] at hg
    simp only [Expr.usesNoField, Bool.and_eq_true] at h
    simp only [evalExpr]
    exact .bind (alike_term t hg.1 hd (h.imp_right And.left)) (fun v v' hv => .bind (alike_chain r hg.2 hd hv (h.imp_right And.right))
      (fun x x' hx => alike_sumLeft hx.2 hx.1))
termination_by structural t => t
theorem alike_chain : ∀ (r : List OpTerm), OpTerm.plainL r = true → ∀ {v v' : Value} {ps ps' : List Pair}
    {d d' : Nat}, d ≤ d' → SameData v v' → (Pair.dataL ps = Pair.dataL ps' ∨ OpTerm.usesNoFieldL r = true) →
    Alike f f' (fun x y => SameData x.1 y.1 ∧ DataOps x.2 y.2) (evalChain fs f stack load r v ps d)
      (evalChain fs' f' stack' load' r v' ps' d')
  | [], _, _, _, _, _, _, _, _, hv, _ => .pure ⟨hv, .nil⟩
  | .mk op t :: r, hg, v, v', ps, ps', d, d', hd, hv, h => by
    simp only [OpTerm.plainL, Bool.and_eq_true] at hg
    simp only [OpTerm.usesNoFieldL, Bool.and_eq_true] at h
    simp only [evalChain]
    refine .bind (alike_term t hg.1 hd (h.imp_right And.left)) (fun w w' hw => .ite Iff.rfl ?_ ?_)
    · exact .bind (alike_applyBin _ hv hw) (fun u u' hu => alike_chain r hg.2 hd hu (h.imp_right And.right))
    · exact .bind (alike_chain r hg.2 hd hw (h.imp_right And.right)) (fun x x' hx => .pure ⟨hv, .cons hx.1 hx.2⟩)
termination_by structural t => t
theorem alike_elems : ∀ (es : List Expr), Expr.plainL es = true → ∀ {ps ps' : List Pair} {d d' : Nat}
    {t : Ty}, d ≤ d' → (Pair.dataL ps = Pair.dataL ps' ∨ Expr.usesNoFieldL es = true) →
    Alike f f' (fun x y => Value.dataL x.1 = Value.dataL y.1 ∧ x.2 = y.2) (evalElems fs f stack load es ps d t)
      (evalElems fs' f' stack' load' es ps' d' t)
  | [], _, _, _, _, _, _, _, _ => .pure ⟨rfl, rfl⟩
  | e :: es, hg, ps, ps', d, d', t, hd, h => by
    simp only [Expr.plainL, Bool.and_eq_true] at hg
    simp only [Expr.usesNoFieldL, Bool.and_eq_true] at h
    simp only [evalElems]
    refine .bind (alike_expr e hg.1 hd (h.imp_right And.left)) (fun v v' hv => ?_)
    rw [← hv.getType]
    cases Ty.mostSpecific t v.getType with
    | none => exact .fail _
    | some u =>
      exact .bind (alike_elems es hg.2 hd (h.imp_right And.right)) (fun x x' hx => .pure ⟨by
        simp only [Value.dataL, hx.1, show v.data = _ from hv], hx.2⟩)
termination_by structural t => t
theorem alike_items : ∀ (es : List Expr), Expr.plainL es = true → ∀ {ps ps' : List Pair} {d d' : Nat}, d ≤ d' →
    (Pair.dataL ps = Pair.dataL ps' ∨ Expr.usesNoFieldL es = true) →
    Alike f f' (fun x y => Value.dataL x = Value.dataL y) (evalItems fs f stack load es ps d)
      (evalItems fs' f' stack' load' es ps' d')
  | [], _, _, _, _, _, _, _ => .pure rfl
  | e :: es, hg, ps, ps', d, d', hd, h => by
    simp only [Expr.plainL, Bool.and_eq_true] at hg
    simp only [Expr.usesNoFieldL, Bool.and_eq_true] at h
    simp only [evalItems]
    exact .bind (alike_expr e hg.1 hd (h.imp_right And.left)) (fun v v' hv => .bind (alike_items es hg.2 hd (h.imp_right And.right))
      (fun x x' hx => .pure (by simp only [Value.dataL, show Value.dataL x = _ from hx, show v.data = _ from hv])))
termination_by structural t => t
theorem alike_fields : ∀ (fds : List Field), Field.plainL fds = true → ∀ {ps ps' : List Pair}
    {par par' : Option Obj} {d d' : Nat}, d ≤ d' → Pair.dataL ps = Pair.dataL ps' → Obj.dataP par = Obj.dataP par' →
    Alike f f' (fun x y => Pair.dataL x.1 = Pair.dataL y.1 ∧ Obj.dataP x.2 = Obj.dataP y.2)
      (evalFields fs f stack load fds d ps par) (evalFields fs' f' stack' load' fds d' ps' par')
  | [], _, _, _, _, _, _, _, _, hp, hr => .pure ⟨hp, hr⟩
  | .mk tg e :: fds, hg, ps, ps', par, par', d, d', hd, hp, hr => by
    cases tg with
    | global g => simp [Field.plainL] at hg
    | field n =>
      simp only [Field.plainL, Bool.and_eq_true] at hg
      simp only [evalFields, checkNew]
      refine .bind (.ite (by rw [dataP_names hp]) (.fail _) (.pure (Q := fun _ _ => True) trivial))
        (fun _ _ _ => .bind (alike_expr e hg.1 hd (.inl hp)) (fun v v' hv => ?_))
      exact alike_fields fds hg.2 hd (dataP_snoc hp hv n) hr
    | parent =>
      simp only [Field.plainL, Bool.and_eq_true] at hg
      simp only [evalFields, checkNew]
      have hs : par.isSome = par'.isSome := by
        cases par <;> cases par' <;> simp [Obj.dataP] at hr ⊢
      refine .bind (.ite (by rw [hs]) (.fail _) (.pure (Q := fun _ _ => True) trivial))
        (fun _ _ _ => .bind (alike_expr e hg.1 hd (.inl hp)) (fun v v' hv => ?_))
      cases dataForm hv <;> try exact .fail _
      rename_i o o' ho
      exact alike_fields fds hg.2 hd hp (by simp only [Obj.dataP, ho])
termination_by structural t => t
end

end

end

end Over
