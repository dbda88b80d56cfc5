import Verif.Lemmas.Closed
import Verif.Lemmas.Depth
import Verif.Lemmas.Inline3
import Verif.Spec.Fold

/-! # Replacing closed parts by others of the same value -/

set_option linter.unusedSectionVars false

namespace Over

section
variable {S : IncKind → Nat} {α β : Type}

/-- The action changes nothing but the ids that are given out, and what it yields has `V`. -/
def Clean (S : IncKind → Nat) (V : α → Prop) (m : EM α) : Prop :=
  ∀ st, Warm S st.rt → (∃ e, m st = .error e) ∨ ∃ a r, m st = .ok (a, { st with rt := r }) ∧ V a ∧ Warm S r

theorem Clean.bind {V : α → Prop} {W : β → Prop} {m : EM α} {k : α → EM β} (h : Clean S V m) (hk : ∀ a, V a → Clean S W (k a)) :
    Clean S W (m >>= k) := by
  intro st w
  rcases h st w with ⟨e, h1⟩ | ⟨a, r, h1, h2, h3⟩
  · exact .inl ⟨e, EM.bind_err h1⟩
  · rw [EM.bind_ok h1]
    exact hk a h2 { st with rt := r } h3

theorem Clean.pure {V : α → Prop} {a : α} (h : V a) : Clean S V (pure a) := fun st w => .inr ⟨a, st.rt, rfl, h, w⟩

theorem Clean.fail {V : α → Prop} {file : Option Str} {k : SemKind} : Clean S V (EM.fail file k) := fun _ _ => .inl ⟨_, rfl⟩

theorem Clean.ite {V : α → Prop} {c : Prop} [Decidable c] {a b : EM α} (h1 : Clean S V a) (h2 : Clean S V b) :
    Clean S V (if c then a else b) := by
  by_cases h : c
  · rw [if_pos h]; exact h1
  · rw [if_neg h]; exact h2

theorem Clean.fresh : Clean S (fun i => mask S i = 0) EM.fresh := fun st w => .inr ⟨_, st.rt.next, rfl, w.fresh, w.next⟩

theorem Clean.depthCheck {file : Option Str} {d : Nat} : Clean S (fun _ => True) (depthCheck file d) := by
  unfold Over.depthCheck
  exact .ite .fail (.pure trivial)

/-- No keyword object is in the value. -/
def NoKind (S : IncKind → Nat) (v : Value) : Prop := v.mapIds (mask S) = v.mapIds (fun _ => 0)
/-- … values. -/
def NoKindL (S : IncKind → Nat) (vs : List Value) : Prop := Value.mapIdsL (mask S) vs = Value.mapIdsL (fun _ => 0) vs
/-- … fields. -/
def NoKindP (S : IncKind → Nat) (ps : List Pair) : Prop := Pair.mapIdsL (mask S) ps = Pair.mapIdsL (fun _ => 0) ps
/-- … a parent. -/
def NoKindO (S : IncKind → Nat) (o : Option Obj) : Prop := Obj.mapIdsP (mask S) o = Obj.mapIdsP (fun _ => 0) o

theorem NoKind.like {v v' : Value} (h : NoKind S v) (h' : NoKind S v') (hd : v.data = v'.data) : Like S v v' := by
  show v.mapIds _ = v'.mapIds _
  rw [h, h', Value.data_mapIds, Value.data_mapIds, hd]

theorem NoKindL.get {vs : List Value} (h : NoKindL S vs) {n : Nat} {v : Value} (hv : vs[n]? = some v) : NoKind S v := by
  induction vs generalizing n with
  | nil => simp at hv
  | cons a r ih =>
    simp only [NoKindL, Value.mapIdsL, List.cons.injEq] at h
    cases n with
    | zero => simp at hv; subst hv; exact h.1
    | succ n => exact ih h.2 (by simpa using hv)

theorem NoKindP.find {ps : List Pair} (h : NoKindP S ps) {x : Str} {p : Pair} (hp : ps.find? (fun p => p.field == x) = some p) :
    NoKind S p.value := by
  induction ps with
  | nil => simp at hp
  | cons a r ih =>
    obtain ⟨n, v⟩ := a
    simp only [NoKindP, Pair.mapIdsL, List.cons.injEq, Pair.mk.injEq, true_and] at h
    rw [List.find?_cons] at hp
    split at hp
    · cases hp; exact h.1
    · exact ih h.2 hp

theorem NoKindP.snoc {ps : List Pair} (h : NoKindP S ps) {v : Value} (hv : NoKind S v) (x : Str) : NoKindP S (ps ++ [.mk x v]) := by
  unfold NoKindP at *
  rw [Pair.mapIdsL_append, Pair.mapIdsL_append, h, Pair.mapIdsL, Pair.mapIdsL, hv]
  rfl

variable {file : Option Str}

theorem clean_applyBin (op : BinOp) {a b : Value} (ha : NoKind S a) (hb : NoKind S b) : Clean S (NoKind S) (applyBin file op a b) := by
  have h := binSem_mapIds (mask S) op a b
  have h' := binSem_mapIds (fun _ => 0) op a b
  rw [ha, hb, h'] at h
  unfold applyBin
  cases e : binSem op a b <;> rw [e] at h <;> simp only [BinRes.val.injEq, BinRes.newArr.injEq] at h
  · exact .pure h.symm
  · exact .bind .fresh fun i hi => .pure (by
      show Value.mapIds _ _ = Value.mapIds _ _
      simp only [Value.mapIds, h.2, hi])
  · exact .fail
  · exact .fail

theorem clean_applyUn (op : UnOp) {a : Value} : Clean S (NoKind S) (applyUn file op a) := by
  cases a <;> cases op <;> simp only [applyUn, Value.getType] <;> first | exact .fail | exact .pure rfl

theorem clean_sumLeft : ∀ {l : List (BinOp × Value)}, (∀ x ∈ l, NoKind S x.2) → ∀ {v : Value}, NoKind S v →
    Clean S (NoKind S) (sumLeft file v l)
  | [], _, _, h => .pure h
  | (_, _) :: _, hl, _, h => .bind (clean_applyBin _ h (hl _ List.mem_cons_self)) fun _ h =>
      clean_sumLeft (fun x hx => hl x (List.mem_cons_of_mem _ hx)) h

theorem clean_evalIndex (oob : Nat → OverError) {vs : List Value} {i : Value} (h : NoKindL S vs) :
    Clean S (NoKind S) (evalIndex file oob vs i) := by
  cases i <;> simp only [evalIndex, Value.getType] <;> try exact .fail
  split
  · split
    · rename_i h1; exact .pure (h.get h1)
    · exact .fail
  · exact .fail

/-- The value of a name that is no global and no kind. -/
theorem clean_evalName {ps : List Pair} {x : Str} (hx : (x.head? != some '@') = true) (hk : (!kindWords.contains x) = true)
    (h : NoKindP S ps ∨ noField x = true) : Clean S (NoKind S) (evalName file ps x) := by
  have hx' : x.head? ≠ some '@' := by simpa using hx
  have hk' : x ≠ c!"Obj" ∧ x ≠ c!"Str" ∧ x ≠ c!"Arr" ∧ x ≠ c!"Tup" := by simpa [kindWords] using hk
  unfold evalName
  rw [if_neg hx']
  by_cases h1 : x = c!"null"
  · simp only [if_pos h1]; exact .pure rfl
  by_cases h2 : x = c!"true"
  · simp only [if_neg h1, if_pos h2]; exact .pure rfl
  by_cases h3 : x = c!"false"
  · simp only [if_neg h1, if_neg h2, if_pos h3]; exact .pure rfl
  by_cases h8 : x = c!"@"
  · subst h8; exact absurd rfl hx'
  simp only [if_neg h1, if_neg h2, if_neg h3, if_neg hk'.1, if_neg hk'.2.1, if_neg hk'.2.2.1, if_neg hk'.2.2.2, if_neg h8]
  rcases h with h | h
  · split
    · rename_i h4; exact .pure (h.find h4)
    · exact .fail
  · simp [noField, reservedWords, hx', h1, h2, h3, h8, hk'] at h

section
variable {fs : FS} {stack : List Str} {load : Loader}

mutual
theorem clean_term : ∀ (t : Term), t.plain = true → t.namesNoKind = true → ∀ {ps : List Pair} {d : Nat},
    (NoKindP S ps ∨ t.usesNoField = true) → Clean S (NoKind S) (evalTerm fs file stack load t ps d)
  | .str _, _, _, _, _, _ => .pure rfl
  | .int _, _, _, _, _, _ => .pure rfl
  | .frac _, _, _, _, _, _ => .pure rfl
  | .name x, hg, hk, ps, _, h => by
    simp only [Term.plain] at hg
    simp only [Term.usesNoField] at h
    simp only [Term.namesNoKind] at hk
    simp only [evalTerm]
    exact clean_evalName hg hk h
  | .dot x t, hg, hk, ps, d, h => by
    simp only [Term.plain, Bool.and_eq_true] at hg
    simp only [Term.usesNoField, Bool.and_eq_true] at h
    simp only [Term.namesNoKind, Bool.and_eq_true] at hk
    simp only [evalTerm]
    refine .bind (clean_evalName hg.1 hk.1 (h.imp_right And.left)) (fun v hv => ?_)
    cases v with
    | arr i ty vs =>
      simp only [NoKind, Value.mapIds, Value.arr.injEq, true_and] at hv
      exact .bind (clean_term t hg.2 hk.2 (h.imp_right And.right)) (fun i _ => clean_evalIndex _ hv.2)
    | tup i ty vs =>
      simp only [NoKind, Value.mapIds, Value.tup.injEq, true_and] at hv
      exact .bind (clean_term t hg.2 hk.2 (h.imp_right And.right)) (fun i _ => clean_evalIndex _ hv.2)
    | obj o =>
      refine .ite .fail (.ite .fail (clean_term t hg.2 hk.2 (.inl ?_)))
      cases o
      simp only [NoKind, Value.mapIds, Obj.mapIds, Value.obj.injEq, Obj.mk.injEq] at hv
      exact hv.2.1
    | _ => exact .fail
  | .neg t, hg, hk, ps, d, h => by
    simp only [evalTerm]
    exact .bind (clean_term t (by simpa only [Term.plain] using hg) (by simpa only [Term.namesNoKind] using hk)
      (by simpa only [Term.usesNoField] using h)) (fun v _ => clean_applyUn _)
  | .pos t, hg, hk, ps, d, h => by
    simp only [evalTerm]
    exact .bind (clean_term t (by simpa only [Term.plain] using hg) (by simpa only [Term.namesNoKind] using hk)
      (by simpa only [Term.usesNoField] using h)) (fun v _ => clean_applyUn _)
  | .arr es, hg, hk, ps, d, h => by
    simp only [evalTerm]
    refine .bind .depthCheck (fun _ _ => .bind (clean_elems es (by simpa only [Term.plain] using hg)
      (by simpa only [Term.namesNoKind] using hk) (by simpa only [Term.usesNoField] using h)) (fun x hx => ?_))
    obtain ⟨vs, t⟩ := x
    exact .bind .fresh fun i hi => .pure (by
      show Value.mapIds _ _ = Value.mapIds _ _
      simp only [Value.mapIds, hi, show Value.mapIdsL _ vs = _ from hx])
  | .tup es, hg, hk, ps, d, h => by
    simp only [evalTerm]
    refine .bind .depthCheck (fun _ _ => .bind (clean_items es (by simpa only [Term.plain] using hg)
      (by simpa only [Term.namesNoKind] using hk) (by simpa only [Term.usesNoField] using h)) (fun vs hx => ?_))
    exact .bind .fresh fun i hi => .pure (by
      show Value.mapIds _ _ = Value.mapIds _ _
      simp only [Value.mapIds, hi, show Value.mapIdsL _ vs = _ from hx])
  | .obj fds, hg, hk, ps, d, _ => by
    simp only [evalTerm]
    refine .bind .depthCheck (fun _ _ => .bind (clean_fields fds (by simpa only [Term.plain] using hg)
      (by simpa only [Term.namesNoKind] using hk) rfl rfl) (fun x hx => ?_))
    obtain ⟨q, r⟩ := x
    obtain ⟨h1, h2⟩ : NoKindP S q ∧ NoKindO S r := hx
    exact .bind .fresh fun i hi => .pure (by
      show Value.mapIds _ _ = Value.mapIds _ _
      simp only [Value.mapIds, Obj.mapIds, hi, show Pair.mapIdsL _ q = _ from h1, show Obj.mapIdsP _ r = _ from h2])
  | .incl e, hg, _, _, _, _ => by simp [Term.plain] at hg
  | .inclAs k e, hg, _, _, _, _ => by simp [Term.plain] at hg
termination_by structural t => t
theorem clean_expr : ∀ (e : Expr), e.plain = true → e.namesNoKind = true → ∀ {ps : List Pair} {d : Nat},
    (NoKindP S ps ∨ e.usesNoField = true) → Clean S (NoKind S) (evalExpr fs file stack load e ps d)
  | .mk t r, hg, hk, ps, d, h => by
    simp only [Expr.plain, Bool.and_eq_true] at hg
    simp only [Expr.usesNoField, Bool.and_eq_true] at h
    simp only [Expr.namesNoKind, Bool.and_eq_true] at hk
    simp only [evalExpr]
    exact .bind (clean_term t hg.1 hk.1 (h.imp_right And.left)) (fun v hv => .bind (clean_chain r hg.2 hk.2 hv (h.imp_right And.right))
      (fun x hx => clean_sumLeft hx.2 hx.1))
termination_by structural t => t
theorem clean_chain : ∀ (r : List OpTerm), OpTerm.plainL r = true → OpTerm.namesNoKindL r = true → ∀ {v : Value} {ps : List Pair} {d : Nat},
    NoKind S v → (NoKindP S ps ∨ OpTerm.usesNoFieldL r = true) →
    Clean S (fun x => NoKind S x.1 ∧ ∀ y ∈ x.2, NoKind S y.2) (evalChain fs file stack load r v ps d)
  | [], _, _, _, _, _, hv, _ => .pure ⟨hv, fun _ h => absurd h List.not_mem_nil⟩
  | .mk op t :: r, hg, hk, v, ps, d, hv, h => by
    simp only [OpTerm.plainL, Bool.and_eq_true] at hg
    simp only [OpTerm.usesNoFieldL, Bool.and_eq_true] at h
    simp only [OpTerm.namesNoKindL, Bool.and_eq_true] at hk
    simp only [evalChain]
    refine .bind (clean_term t hg.1 hk.1 (h.imp_right And.left)) (fun w hw => .ite ?_ ?_)
    · exact .bind (clean_applyBin _ hv hw) (fun u hu => clean_chain r hg.2 hk.2 hu (h.imp_right And.right))
    · exact .bind (clean_chain r hg.2 hk.2 hw (h.imp_right And.right)) (fun x hx => .pure ⟨hv, fun y hy => by
        rcases List.mem_cons.1 hy with rfl | hy
        · exact hx.1
        · exact hx.2 y hy⟩)
termination_by structural t => t
theorem clean_elems : ∀ (es : List Expr), Expr.plainL es = true → Expr.namesNoKindL es = true → ∀ {ps : List Pair} {d : Nat} {t : Ty},
    (NoKindP S ps ∨ Expr.usesNoFieldL es = true) → Clean S (fun x => NoKindL S x.1) (evalElems fs file stack load es ps d t)
  | [], _, _, _, _, _, _ => .pure rfl
  | e :: es, hg, hk, ps, d, t, h => by
    simp only [Expr.plainL, Bool.and_eq_true] at hg
    simp only [Expr.usesNoFieldL, Bool.and_eq_true] at h
    simp only [Expr.namesNoKindL, Bool.and_eq_true] at hk
    simp only [evalElems]
    refine .bind (clean_expr e hg.1 hk.1 (h.imp_right And.left)) (fun v hv => ?_)
    cases Ty.mostSpecific t v.getType with
    | none => exact .fail
    | some u =>
      exact .bind (clean_elems es hg.2 hk.2 (h.imp_right And.right)) (fun x hx => .pure (by
        show Value.mapIdsL _ _ = Value.mapIdsL _ _
        simp only [Value.mapIdsL, show Value.mapIdsL _ x.1 = _ from hx, show v.mapIds _ = _ from hv]))
termination_by structural t => t
theorem clean_items : ∀ (es : List Expr), Expr.plainL es = true → Expr.namesNoKindL es = true → ∀ {ps : List Pair} {d : Nat},
    (NoKindP S ps ∨ Expr.usesNoFieldL es = true) → Clean S (NoKindL S) (evalItems fs file stack load es ps d)
  | [], _, _, _, _, _ => .pure rfl
  | e :: es, hg, hk, ps, d, h => by
    simp only [Expr.plainL, Bool.and_eq_true] at hg
    simp only [Expr.usesNoFieldL, Bool.and_eq_true] at h
    simp only [Expr.namesNoKindL, Bool.and_eq_true] at hk
    simp only [evalItems]
    exact .bind (clean_expr e hg.1 hk.1 (h.imp_right And.left)) (fun v hv => .bind (clean_items es hg.2 hk.2 (h.imp_right And.right))
      (fun x hx => .pure (by
        show Value.mapIdsL _ _ = Value.mapIdsL _ _
        simp only [Value.mapIdsL, show Value.mapIdsL _ x = _ from hx, show v.mapIds _ = _ from hv])))
termination_by structural t => t
theorem clean_fields : ∀ (fds : List Field), Field.plainL fds = true → Field.namesNoKindL fds = true → ∀ {ps : List Pair} {par : Option Obj}
    {d : Nat}, NoKindP S ps → NoKindO S par →
    Clean S (fun x => NoKindP S x.1 ∧ NoKindO S x.2) (evalFields fs file stack load fds d ps par)
  | [], _, _, _, _, _, hp, hr => .pure ⟨hp, hr⟩
  | .mk tg e :: fds, hg, hk, ps, par, d, hp, hr => by
    simp only [Field.namesNoKindL, Bool.and_eq_true] at hk
    cases tg with
    | global g => simp [Field.plainL] at hg
    | field n =>
      simp only [Field.plainL, Bool.and_eq_true] at hg
      simp only [evalFields, checkNew]
      refine .bind (.ite .fail (.pure (V := fun _ => True) trivial)) (fun _ _ => .bind (clean_expr e hg.1 hk.1 (.inl hp)) (fun v hv => ?_))
      exact clean_fields fds hg.2 hk.2 (hp.snoc hv n) hr
    | parent =>
      simp only [Field.plainL, Bool.and_eq_true] at hg
      simp only [evalFields, checkNew]
      refine .bind (.ite .fail (.pure (V := fun _ => True) trivial)) (fun _ _ => .bind (clean_expr e hg.1 hk.1 (.inl hp)) (fun v hv => ?_))
      cases v <;> try exact .fail
      rename_i o
      simp only [NoKind, Value.mapIds, Value.obj.injEq] at hv
      exact clean_fields fds hg.2 hk.2 hp (by
        show Obj.mapIdsP _ _ = Obj.mapIdsP _ _
        simp only [Obj.mapIdsP, hv])
termination_by structural t => t
end

end

end

/-! ## A closed expression at any place -/

section
variable [Unicode] {S : IncKind → Nat} {fs : FS} {file : Option Str} {stack : List Str} {load : Loader}

/-- Where the depth fits, a closed expression that has a value on its own has the same value. -/
theorem eval_of_alone {e : Expr} (hc : e.closed = true) (hk : e.namesNoKind = true) {v0 : Value} {st0 s0 : ESt}
    (h0 : evalExpr noFiles none [] (theLoader noFiles) e [] 1 st0 = .ok (v0, s0)) {ps : List Pair} {d : Nat} (hf : Fits d e.levels)
    {st : ESt} (w : Warm S st.rt) :
    ∃ v r, evalExpr fs file stack load e ps d st = .ok (v, { st with rt := r }) ∧ v.data = v0.data ∧ NoKind S v ∧ Warm S r := by
  simp only [Expr.closed, Bool.and_eq_true] at hc
  let L : Loader := fun _ _ _ _ => .error (.sem file (.duplicateField []))
  have fits : evalExpr noFiles file [] L e [] d st ≠ .error (.sem file .maxDepth) := by
    intro h
    have := depths_expr (T := (· = .sem file .maxDepth)) (fs := noFiles) (file := file) (stack := []) (load := L) (G := [])
      (by intro k hk; cases hk; rfl) (by rintro _ _ _ _ _ _ _ _ _ ⟨⟩ h; cases h) (List.nil_subset _) e [] d st
    rw [h] at this
    exact (this rfl).1 hf
  have atZero : ∃ v s, evalExpr noFiles none [] (theLoader noFiles) e [] 0 st0 = .ok (v, s) ∧ v.data = v0.data := by
    rcases alike_expr (f := none) (f' := none) (fs := noFiles) (fs' := noFiles) (stack := []) (stack' := []) (load := theLoader noFiles)
      (load' := theLoader noFiles) e hc.1 (ps := []) (ps' := []) (d := 0) (d' := 1) (by omega) (.inr hc.2) st0 st0
      with h1 | ⟨a, s1, a', s', h1, h2, h3⟩ | ⟨k, -, h1⟩
    · rw [h0] at h1; cases h1
    · rw [h0] at h2; cases h2; exact ⟨a, s1, h1, h3⟩
    · rw [h0] at h1; cases h1
  obtain ⟨vz, sz, hz, ez⟩ := atZero
  have there : ∃ v s, evalExpr noFiles file [] L e [] d st = .ok (v, s) ∧ v.data = v0.data := by
    rcases alike_expr (f := none) (f' := file) (fs := noFiles) (fs' := noFiles) (stack := []) (stack' := []) (load := theLoader noFiles)
      (load' := L) e hc.1 (ps := []) (ps' := []) (d := 0) (d' := d) (by omega) (.inr hc.2) st0 st
      with h1 | ⟨a, s1, a', s', h1, h2, h3⟩ | ⟨k, h1, -⟩
    · exact absurd h1 fits
    · rw [hz] at h1; cases h1; exact ⟨a', s', h2, h3.symm.trans ez⟩
    · rw [hz] at h1; cases h1
  obtain ⟨vt, stt, ht, et⟩ := there
  rcases alike_expr (f := file) (f' := file) (fs := fs) (fs' := noFiles) (stack := stack) (stack' := []) (load := load)
    (load' := L) e hc.1 (ps := ps) (ps' := []) (d := d) (d' := d) (by omega) (.inr hc.2) st st
    with h1 | ⟨a, s1, a', s', h1, h2, h3⟩ | ⟨k, -, h1⟩
  · exact absurd h1 fits
  · rw [ht] at h2
    cases h2
    rcases clean_expr (S := S) (file := file) (fs := fs) (stack := stack) (load := load) e hc.1 hk (ps := ps) (d := d) (.inr hc.2) st w
      with ⟨x, h4⟩ | ⟨x, r, h4, h5, h6⟩
    · rw [h1] at h4; cases h4
    · rw [h1] at h4; cases h4
      exact ⟨a, r, h1, h3.trans et, h5, h6⟩
  · rw [ht] at h1; cases h1

/-- Both have the same value, wherever they stand. -/
def Swappable (e e' : Expr) : Prop := e.closed = true ∧ e'.closed = true ∧ e.namesNoKind = true ∧ e'.namesNoKind = true ∧
  ∃ v v' st0 s st0' s', evalExpr noFiles none [] (theLoader noFiles) e [] 1 st0 = .ok (v, s) ∧
    evalExpr noFiles none [] (theLoader noFiles) e' [] 1 st0' = .ok (v', s') ∧ v.data = v'.data

theorem Swappable.local {e e' : Expr} (h : Swappable e e') {ps ps' : List Pair} {d : Nat} (hf : Fits d e.levels) (hf' : Fits d e'.levels) :
    Local S (Like S) (evalExpr fs file stack load e ps d) (evalExpr fs file stack load e' ps' d) := by
  obtain ⟨c, c', k, k', v, v', st0, s, st0', s', h0, h0', hd⟩ := h
  intro st st' w w'
  obtain ⟨a, r, h1, h2, h3, h4⟩ := eval_of_alone (fs := fs) (file := file) (stack := stack) (load := load) c k h0 (ps := ps) hf w
  obtain ⟨a', r', h1', h2', h3', h4'⟩ := eval_of_alone (fs := fs) (file := file) (stack := stack) (load := load) c' k' h0' (ps := ps') hf' w'
  exact .inr ⟨a, a', r, r', h1, h1', h3.like h3' (h2.trans (hd.trans h2'.symm)), h4, h4'⟩

end

section
variable [Unicode] {S : IncKind → Nat} {D : Option Str → Prop} {fs : FS} {file : Option Str} {stack : List Str} {load : Loader}
  {P : Expr → Expr → Prop} (hP : ∀ e e', P e e' → Swappable e e')
include hP

mutual
theorem evalTerm_fold (hl : LoadSim S load) : ∀ (t : Term) {t' : Term}, FoldTerm P t t' → ∀ {ps ps' : List Pair} {d : Nat}, LikeP S ps ps' →
    Fits d t.levels → Fits d t'.levels → SimAll S D (Like S) (evalTerm fs file stack load t ps d) (evalTerm fs file stack load t' ps' d)
  | t, _, .same _, _, _, _, hp, _, _ => evalTerm_same hl t hp
  | t, t', .swap h, ps, ps', d, hp, hf, hf' => by
    have := (hP _ _ h).local (S := S) (fs := fs) (file := file) (stack := stack) (load := load) (ps := ps) (ps' := ps') (d := d)
      (by simpa [Expr.levels, OpTerm.levelsL] using hf) (by simpa [Expr.levels, OpTerm.levelsL] using hf')
    rw [evalExpr_single, evalExpr_single] at this
    exact .of_local this
  | .neg t, _, .neg h, ps, ps', d, hp, hf, hf' => by
    simp only [Term.levels, fits_sign] at hf hf'
    simp only [evalTerm]
    exact .bind lasting_true (evalTerm_fold hl t h hp hf hf') (fun v v' hv => .of_local (applyUn_local _ hv))
  | .pos t, _, .pos h, ps, ps', d, hp, hf, hf' => by
    simp only [Term.levels, fits_sign] at hf hf'
    simp only [evalTerm]
    exact .bind lasting_true (evalTerm_fold hl t h hp hf hf') (fun v v' hv => .of_local (applyUn_local _ hv))
  | .arr es, _, .arr h, ps, ps', d, hp, hf, hf' => by
    simp only [Term.levels, fits_bracket] at hf hf'
    simp only [evalTerm]
    refine .bind lasting_true (.depthCheck (Nat.le_refl _) (.inl rfl)) (fun _ _ _ => .bind lasting_true
      (evalElems_fold hl es h hp hf.2 hf'.2) (fun x x' hx => ?_))
    obtain ⟨vs, t⟩ := x
    obtain ⟨vs', t'⟩ := x'
    obtain ⟨h1, rfl⟩ : LikeL S vs vs' ∧ t = t' := hx
    exact .of_local (.bind .fresh fun i j hij => .pure (by
      show Value.mapIds _ _ = Value.mapIds _ _
      simp only [Value.mapIds, hij.1, hij.2, show Value.mapIdsL _ vs = _ from h1]))
  | .tup es, _, .tup h, ps, ps', d, hp, hf, hf' => by
    simp only [Term.levels, fits_bracket] at hf hf'
    simp only [evalTerm]
    refine .bind lasting_true (.depthCheck (Nat.le_refl _) (.inl rfl)) (fun _ _ _ => .bind lasting_true
      (evalItems_fold hl es h hp hf.2 hf'.2) (fun vs vs' hx => ?_))
    exact .of_local (.bind .fresh fun i j hij => .pure (by
      show Value.mapIds _ _ = Value.mapIds _ _
      simp only [Value.mapIds, hij.1, hij.2, show Value.mapIdsL _ vs = _ from hx, hx.getType]))
  | .obj fds, _, .obj h, ps, ps', d, hp, hf, hf' => by
    simp only [Term.levels, fits_bracket] at hf hf'
    simp only [evalTerm]
    refine .bind lasting_true (.depthCheck (Nat.le_refl _) (.inl rfl)) (fun _ _ _ => .bind lasting_true
      (evalFields_fold hl fds h (ps := []) (ps' := []) (par := none) (par' := none) rfl rfl hf.2 hf'.2) (fun x x' hx => ?_))
    obtain ⟨q, r⟩ := x
    obtain ⟨q', r'⟩ := x'
    obtain ⟨h1, h2⟩ : LikeP S q q' ∧ LikeO S r r' := hx
    exact .of_local (.bind .fresh fun i j hij => .pure (by
      show Value.mapIds _ _ = Value.mapIds _ _
      simp only [Value.mapIds, Obj.mapIds, hij.1, hij.2, show Pair.mapIdsL _ q = _ from h1, show Obj.mapIdsP _ r = _ from h2]))
  | .incl e, _, .incl h, ps, ps', d, hp, hf, hf' => by
    simp only [Term.levels, fits_bracket] at hf hf'
    simp only [evalTerm]
    refine .bind lasting_true (.depthCheck (Nat.le_refl _) (.inl rfl)) (fun _ _ _ => .bind lasting_true (evalExpr_fold hl e h hp hf.2 hf'.2)
      (fun v v' hv => .bind lasting_true (.of_local (evalKeyword_local hv)) (fun k k' hk => ?_)))
    subst hk
    cases k with
    | some k => exact .fail _ _
    | none => cases hv.form <;> first | exact .fail _ _ | exact evalInclude_sim hl _ _
  | .inclAs k e, _, .inclAs h h', ps, ps', d, hp, hf, hf' => by
    simp only [Term.levels, fits_bracket, fits_max] at hf hf'
    simp only [evalTerm]
    refine .bind lasting_true (.depthCheck (Nat.le_refl _) (.inl rfl)) (fun _ _ _ => .bind lasting_true
      (evalExpr_fold hl k h hp hf.2.1 hf'.2.1) (fun v v' hv => .bind lasting_true (.of_local (evalKeyword_local hv)) (fun k k' hk => ?_)))
    subst hk
    cases k with
    | none => exact .fail _ _
    | some k =>
      refine .bind lasting_true (evalExpr_fold hl e h' hp hf.2.2 hf'.2.2) (fun w w' hw => ?_)
      cases hw.form <;> first | exact .fail _ _ | exact evalInclude_sim hl _ _
termination_by structural t => t
theorem evalExpr_fold (hl : LoadSim S load) : ∀ (e : Expr) {e' : Expr}, FoldExpr P e e' → ∀ {ps ps' : List Pair} {d : Nat}, LikeP S ps ps' →
    Fits d e.levels → Fits d e'.levels → SimAll S D (Like S) (evalExpr fs file stack load e ps d) (evalExpr fs file stack load e' ps' d)
  | _, _, .swap h, _, _, _, _, hf, hf' => .of_local ((hP _ _ h).local hf hf')
  | .mk t r, _, .mk h h', ps, ps', d, hp, hf, hf' => by
    simp only [Expr.levels, fits_max] at hf hf'
    simp only [evalExpr]
    exact .bind lasting_true (evalTerm_fold hl t h hp hf.1 hf'.1) (fun v v' hv => .bind lasting_true
      (evalChain_fold hl r h' hv hp hf.2 hf'.2) (fun x x' hx => .of_local (sumLeft_local hx.2 hx.1)))
termination_by structural t => t
theorem evalChain_fold (hl : LoadSim S load) : ∀ (r : List OpTerm) {r' : List OpTerm}, FoldOps P r r' → ∀ {v v' : Value} {ps ps' : List Pair}
    {d : Nat}, Like S v v' → LikeP S ps ps' → Fits d (OpTerm.levelsL r) → Fits d (OpTerm.levelsL r') →
    SimAll S D (LikeChain S) (evalChain fs file stack load r v ps d) (evalChain fs file stack load r' v' ps' d)
  | [], _, .nil, _, _, _, _, _, hv, _, _, _ => .of_local (.pure ⟨hv, .nil⟩)
  | .mk op t :: r, _, .cons h h', v, v', ps, ps', d, hv, hp, hf, hf' => by
    simp only [OpTerm.levelsL, fits_max] at hf hf'
    simp only [evalChain]
    refine .bind lasting_true (evalTerm_fold hl t h hp hf.1 hf'.1) (fun w w' hw => .ite Iff.rfl ?_ ?_)
    · exact .bind lasting_true (.of_local (applyBin_local _ hv hw)) (fun u u' hu => evalChain_fold hl r h' hu hp hf.2 hf'.2)
    · exact .bind lasting_true (evalChain_fold hl r h' hw hp hf.2 hf'.2) (fun x x' hx => .of_local (.pure ⟨hv, .cons hx.1 hx.2⟩))
termination_by structural t => t
theorem evalElems_fold (hl : LoadSim S load) : ∀ (es : List Expr) {es' : List Expr}, FoldItems P es es' → ∀ {ps ps' : List Pair} {d : Nat}
    {t : Ty}, LikeP S ps ps' → Fits d (Expr.levelsL es) → Fits d (Expr.levelsL es') →
    SimAll S D (fun x y => LikeL S x.1 y.1 ∧ x.2 = y.2) (evalElems fs file stack load es ps d t) (evalElems fs file stack load es' ps' d t)
  | [], _, .nil, _, _, _, _, _, _, _ => .of_local (.pure ⟨rfl, rfl⟩)
  | e :: es, _, .cons h h', ps, ps', d, t, hp, hf, hf' => by
    simp only [Expr.levelsL, fits_max] at hf hf'
    simp only [evalElems]
    refine .bind lasting_true (evalExpr_fold hl e h hp hf.1 hf'.1) (fun v v' hv => ?_)
    rw [← hv.getType]
    cases Ty.mostSpecific t v.getType with
    | none => exact .fail _ _
    | some u =>
      exact .bind lasting_true (evalElems_fold hl es h' hp hf.2 hf'.2)
        (fun x x' hx => .of_local (.pure ⟨.cons hv hx.1, hx.2⟩))
termination_by structural t => t
theorem evalItems_fold (hl : LoadSim S load) : ∀ (es : List Expr) {es' : List Expr}, FoldItems P es es' → ∀ {ps ps' : List Pair} {d : Nat},
    LikeP S ps ps' → Fits d (Expr.levelsL es) → Fits d (Expr.levelsL es') →
    SimAll S D (LikeL S) (evalItems fs file stack load es ps d) (evalItems fs file stack load es' ps' d)
  | [], _, .nil, _, _, _, _, _, _ => .of_local (.pure rfl)
  | e :: es, _, .cons h h', ps, ps', d, hp, hf, hf' => by
    simp only [Expr.levelsL, fits_max] at hf hf'
    simp only [evalItems]
    exact .bind lasting_true (evalExpr_fold hl e h hp hf.1 hf'.1) (fun v v' hv => .bind lasting_true
      (evalItems_fold hl es h' hp hf.2 hf'.2) (fun x x' hx => .of_local (.pure (.cons hv hx))))
termination_by structural t => t
theorem evalFields_fold (hl : LoadSim S load) : ∀ (fds : List Field) {fds' : List Field}, FoldFields P fds fds' → ∀ {ps ps' : List Pair}
    {par par' : Option Obj} {d : Nat}, LikeP S ps ps' → LikeO S par par' → Fits d (Field.levelsL fds) → Fits d (Field.levelsL fds') →
    SimAll S D (LikeFields S) (evalFields fs file stack load fds d ps par) (evalFields fs file stack load fds' d ps' par')
  | [], _, .nil, _, _, _, _, _, hp, hr, _, _ => .of_local (.pure ⟨hp, hr⟩)
  | .mk _ e :: fds, _, .cons h h', _, _, _, _, _, hp, hr, hf, hf' => fun st st' hst hk => by
    simp only [Field.levelsL, fits_max] at hf hf'
    exact fields_step hp hr (fun _ _ => id) hst (evalExpr_fold hl e h hp hf.1 hf'.1 st st' hst hk) fun _ _ _ _ hv h1 h2 _ h4 =>
      cont_sim hp hr (Θ := []) (Γ := []) KnownDefs.none
        (fun hp hr => (evalFields_fold hl fds h' hp hr hf.2 hf'.2).weaken fun _ _ => trivial) hv h1 h2 h4
termination_by structural t => t
end

/-- The meanings of two documents. -/
theorem meaning_fold {file : Option Str} {stack : List Str} {d d' : List Field} (h : FoldFields P d d') (hl : Field.levelsL d ≤ 63)
    (hl' : Field.levelsL d' ≤ 63) {rt rt' : Rt} (w : Warm S rt) (w' : Warm S rt') :
    (∃ e, meaning fs file stack d rt = .error e ∧ meaning fs file stack d' rt' = .error e) ∨
    ∃ o o' st st', meaning fs file stack d rt = .ok (o, st) ∧ meaning fs file stack d' rt' = .ok (o', st') ∧ LikeObj S o o' := by
  have key : SimAll S (fun _ => False) (LikeObj S) (evalDoc fs file stack (loadN fs (fs.nodes.length + 1)) d)
      (evalDoc fs file stack (loadN fs (fs.nodes.length + 1)) d') := by
    unfold evalDoc
    refine .bind lasting_true (evalFields_fold hP (loadN_sim _) d h (ps := []) (ps' := []) (par := none) (par' := none) rfl rfl
      (by unfold Fits; omega) (by unfold Fits; omega)) (fun x x' hx => ?_)
    obtain ⟨q, r⟩ := x
    obtain ⟨q', r'⟩ := x'
    obtain ⟨h1, h2⟩ : LikeP S q q' ∧ LikeO S r r' := hx
    exact .of_local (.bind .fresh fun i j hij => .pure (by
      show Obj.mapIds _ _ = Obj.mapIds _ _
      simp only [Obj.mapIds, hij.1, hij.2, show Pair.mapIdsL _ q = _ from h1, show Obj.mapIdsP _ r = _ from h2]))
  rcases key ⟨[], [], rt⟩ ⟨[], [], rt'⟩ ⟨fun _ _ => LikeGet.refl _, fun _ => LikeGet.refl _, w, w'⟩ trivial
    with ⟨f, hf, -⟩ | h1 | ⟨o, o', st, st', h1, h2, h3, -, -⟩
  · exact hf.elim
  · exact .inl h1
  · exact .inr ⟨o, o', st, st', h1, h2, h3⟩

end

end Over
