import Verif.Lemmas.Chains
import Verif.Lemmas.Continue
import Verif.Spec.Concrete

/-!
# C28–C30: operators

The statements about texts start from a text that was read as an object `o`, and append one more definition
`y: …` that uses fields of `o` as operands; so the operands range over all values a document can denote.
-/

namespace Over

/-! ## C29: one operation -/

/-- Results that differ at most in the ids of containers. -/
def OpResult.Same : OpResult → OpResult → Prop
  | .value v, .value w => v.data = w.data
  | .mismatch a b, .mismatch c d => a = c ∧ b = d
  | .zero, .zero => True
  | _, _ => False

/-- C29: the table has an entry for every operation, and only one (up to the id of a new array). -/
theorem c29_table_total (op : BinOp) (a b : Value) :
    (∃ r, OpTable op a b r) ∧ ∀ r r', OpTable op a b r → OpTable op a b r' → r.Same r' := by
  simp only [table_iff]
  generalize binSem op a b = x
  cases x with
  | val v =>
    refine ⟨⟨.value v, rfl⟩, ?_⟩
    rintro (_ | _ | _) (_ | _ | _) h h' <;> simp_all [BinRes.Says, OpResult.Same]
  | newArr t vs =>
    refine ⟨⟨.value (.arr 0 t vs), ⟨0, rfl⟩⟩, ?_⟩
    rintro (_ | _ | _) (_ | _ | _) h h' <;> simp_all [BinRes.Says, OpResult.Same]
    obtain ⟨i, rfl⟩ := h; obtain ⟨j, rfl⟩ := h'; rfl
  | bad t1 t2 =>
    refine ⟨⟨.mismatch t1 t2, ⟨rfl, rfl⟩⟩, ?_⟩
    rintro (_ | _ | _) (_ | _ | _) h h' <;> simp_all [BinRes.Says, OpResult.Same]
  | divisionByZero =>
    refine ⟨⟨.zero, trivial⟩, ?_⟩
    rintro (_ | _ | _) (_ | _ | _) h h' <;> simp_all [BinRes.Says, OpResult.Same]

section
variable [Unicode]

theorem eval_names {fs : FS} {file : Option Str} {stack : List Str} {load : Loader} {ps : List Pair} {a b : Str}
    {v w : Value} (ha : FieldName a) (hb : FieldName b) (hv : FirstNamed ps a v) (hw : FirstNamed ps b w)
    (op : BinOp) (d : Nat) (st : ESt) :
    evalExpr fs file stack load (.mk (.name a) [.mk op (.name b)]) ps d st = applyBin file op v w st := by
  have h1 : ∀ st, evalTerm fs file stack load (.name a) ps d st = .ok (v, st) := fun st => by
    simp only [evalTerm, evalName_first ha hv]; rfl
  have h2 : ∀ st, evalTerm fs file stack load (.name b) ps d st = .ok (w, st) := fun st => by
    simp only [evalTerm, evalName_first hb hw]; rfl
  rw [evalExpr_known h1 (.cons (b := (op, w)) ⟨_, rfl, h2⟩ .nil), chainVals_one]

omit [Unicode] in
theorem applyBin_mismatch {file : Option Str} {op : BinOp} {a b : Value} {t1 t2 : Ty}
    (h : OpTable op a b (.mismatch t1 t2)) (st : ESt) :
    applyBin file op a b st = .error (.sem file (.binary op t1 t2)) := by
  rw [table_iff] at h
  unfold applyBin
  generalize binSem op a b = x at h
  cases x with
  | bad _ _ => obtain ⟨rfl, rfl⟩ := h; rfl
  | _ => exact h.elim

omit [Unicode] in
theorem applyBin_zero {file : Option Str} {op : BinOp} {a b : Value} (h : OpTable op a b .zero) (st : ESt) :
    applyBin file op a b st = .error (.sem file .divisionByZero) := by
  rw [table_iff] at h
  unfold applyBin
  generalize binSem op a b = x at h
  cases x with
  | divisionByZero => rfl
  | _ => exact h.elim

theorem spBinary {a b : Str} (ha : FieldName a) (hb : FieldName b) (op : BinOp) :
    SpExpr (.mk (.name a) [.mk op (.name b)]) (a ++ opChar op :: b) := by
  have := SpExpr.mk (.name ha.varName) (.cons (op := op) (.name hb.varName) .nil)
  simpa using this

/-- C29: let `from_str` read `text` as `o`, and let `a` and `b` be fields of `o` with values `v` and `w`.  The
text continued with the definition `y:a∘b` (`∘` any operator, `y` a new field name) is read as the table says:
as `o` with a further field holding the result, or with an operator error naming the two types, or with the
error for a division by zero. -/
theorem c29_operation (fs : FS) (rt : Rt) (text : Str) (o : Obj) (s : PState)
    (h : fromStr fs text rt = .ok o s) (a b y : Str) (v w : Value) (ha : FirstNamed o.pairs a v)
    (hb : FirstNamed o.pairs b w) (hy : FieldName y) (hn : NotNamed o.pairs y) (op : BinOp) :
    (∀ r, OpTable op v w (.value r) → ∃ o' s' r',
      fromStr fs (text ++ c!"\n" ++ y ++ c!":" ++ (a ++ opChar op :: b)) rt = .ok o' s' ∧
      o'.pairs = o.pairs ++ [.mk y r'] ∧ o'.parent = o.parent ∧ r'.data = r.data) ∧
    (∀ t1 t2, OpTable op v w (.mismatch t1 t2) → ∃ l c,
      fromStr fs (text ++ c!"\n" ++ y ++ c!":" ++ (a ++ opChar op :: b)) rt =
        .err ⟨none, .binaryOperatorError t1 t2 op l c⟩) ∧
    (OpTable op v w .zero → ∃ l c,
      fromStr fs (text ++ c!"\n" ++ y ++ c!":" ++ (a ++ opChar op :: b)) rt =
        .err ⟨none, .invalidNumeric l c⟩) := by
  have hr : Runs fs rt (none, text) (.ok o s) := h ▸ Runs.str text
  have fa := parsed_fieldName hr ha
  have fb := parsed_fieldName hr hb
  obtain ⟨d, st, -, -, -, -, hc⟩ := continue_field fs rt text o s h
  have hm := hc y _ _ hy (spBinary fa fb op)
  rw [if_neg (notNamed_mem hn), eval_names fa fb ha hb] at hm
  refine ⟨?_, ?_, ?_⟩
  · intro r hop
    obtain ⟨r', st', h1, h2, h3, -⟩ := applyBin_value (file := none) hop st
    rw [h1] at hm
    obtain ⟨s', h4, -⟩ := hm.of_ok
    exact ⟨_, s', r', h4, rfl, rfl, h3⟩
  · intro t1 t2 hop
    rw [applyBin_mismatch hop] at hm
    obtain ⟨pe, h1, h2⟩ := hm.of_error
    cases h2 with
    | sem hk => cases hk; exact ⟨_, _, h1⟩
  · intro hop
    rw [applyBin_zero hop] at hm
    obtain ⟨pe, h1, h2⟩ := hm.of_error
    cases h2 with
    | sem hk => cases hk; exact ⟨_, _, h1⟩

/-! ## C30: division by zero -/

omit [Unicode] in
theorem zero_iff (op : BinOp) (v w : Value) : OpTable op v w .zero ↔
    (op = .div ∧ (∃ x, IsNumber v x) ∧ IsNumber w 0) ∨ (op = .mod ∧ (∃ x, v = .int x) ∧ w = .int 0) := by
  constructor
  · intro h
    cases h with
    | divZero h1 h2 => exact .inl ⟨rfl, ⟨_, h1⟩, h2⟩
    | modZero x => exact .inr ⟨rfl, ⟨x, rfl⟩, rfl⟩
  · rintro (⟨rfl, ⟨x, h1⟩, h2⟩ | ⟨rfl, ⟨x, rfl⟩, rfl⟩)
    · exact .divZero h1 h2
    · exact .modZero x

/-- C30: continuing a text with `y:a/b` or `y:a%b`, the error for a division by zero comes up exactly when a
number is divided by the Int or Frac 0, or the remainder of an Int by 0 is taken. -/
theorem c30_division_by_zero (fs : FS) (rt : Rt) (text : Str) (o : Obj) (s : PState)
    (h : fromStr fs text rt = .ok o s) (a b y : Str) (v w : Value) (ha : FirstNamed o.pairs a v)
    (hb : FirstNamed o.pairs b w) (hy : FieldName y) (hn : NotNamed o.pairs y) (op : BinOp) :
    (∃ l c, fromStr fs (text ++ c!"\n" ++ y ++ c!":" ++ (a ++ opChar op :: b)) rt =
        .err ⟨none, .invalidNumeric l c⟩) ↔
      (op = .div ∧ (∃ x, IsNumber v x) ∧ IsNumber w 0) ∨ (op = .mod ∧ (∃ x, v = .int x) ∧ w = .int 0) := by
  rw [← zero_iff]
  obtain ⟨h1, h2, h3⟩ := c29_operation fs rt text o s h a b y v w ha hb hy hn op
  refine ⟨?_, h3⟩
  rintro ⟨l, c, he⟩
  obtain ⟨r, hr⟩ := (c29_table_total op v w).1
  cases r with
  | value r =>
    obtain ⟨o', s', r', h4, -⟩ := h1 r hr
    rw [he] at h4; cases h4
  | mismatch t1 t2 =>
    obtain ⟨l', c', h4⟩ := h2 t1 t2 hr
    rw [he] at h4; cases h4
  | zero => exact hr

/-- C30: a nonzero divisor of the right kind gives a value. -/
theorem c30_nonzero_divisor (fs : FS) (rt : Rt) (text : Str) (o : Obj) (s : PState)
    (h : fromStr fs text rt = .ok o s) (a b y : Str) (v w : Value) (ha : FirstNamed o.pairs a v)
    (hb : FirstNamed o.pairs b w) (hy : FieldName y) (hn : NotNamed o.pairs y) :
    (∀ p q : Rat, IsNumber v p → IsNumber w q → q ≠ 0 → ∃ o' s',
      fromStr fs (text ++ c!"\n" ++ y ++ c!":" ++ (a ++ c!"/" ++ b)) rt = .ok o' s' ∧
        o'.pairs = o.pairs ++ [.mk y (.frac (p / q))]) ∧
    (∀ i j : Int, v = .int i → w = .int j → j ≠ 0 → ∃ o' s' r,
      fromStr fs (text ++ c!"\n" ++ y ++ c!":" ++ (a ++ c!"%" ++ b)) rt = .ok o' s' ∧
        o'.pairs = o.pairs ++ [.mk y (.int r)] ∧ (∃ k, i = j * k + r) ∧ r.natAbs < j.natAbs ∧ 0 ≤ r * i) := by
  constructor
  · intro p q hp hq h0
    obtain ⟨o', s', r', h1, h2, -, h3⟩ :=
      (c29_operation fs rt text o s h a b y v w ha hb hy hn .div).1 _ (.div hp hq h0)
    refine ⟨o', s', by simpa [opChar] using h1, ?_⟩
    rw [h2]
    cases r' <;> simp_all [Value.data]
  · rintro i j rfl rfl h0
    have ht := tmod_table i j h0
    obtain ⟨o', s', r', h1, h2, -, h3⟩ :=
      (c29_operation fs rt text o s h a b y _ _ ha hb hy hn .mod).1 _ ht
    obtain rfl : r' = .int (Int.tmod i j) := by cases r' <;> simp_all [Value.data]
    cases ht with
    | mod h4 h5 h6 h7 => exact ⟨o', s', _, by simpa [opChar] using h1, h2, ⟨_, h5⟩, h6, h7⟩

/-! ## C28: chains -/

omit [Unicode] in
/-- C28: every chain has exactly one reading, and the reading at most one value, up to ids of new arrays. -/
theorem c28_one_reading (v : Value) (r : List (BinOp × Value)) :
    (∃ t, SumTree v r t ∧ ∀ t', SumTree v r t' → t' = t) ∧
    ∀ t u u', SumTree v r t → TreeValue t u → TreeValue t u' → u.data = u'.data := by
  obtain ⟨t, ht⟩ := sumTree_exists v r
  exact ⟨⟨t, ht, fun t' h => sumTree_unique h ht⟩, fun t u u' _ h h' => treeValue_data h h'⟩

omit [Unicode] in
/-- C28: an expression (in any file, at any depth, with any operands) evaluates to `u` exactly when its operands
evaluate, from left to right, and then its reading has a value; that value is `u`, up to ids of new arrays. -/
theorem c28_expression (fs : FS) (file : Option Str) (stack : List Str) (load : Loader) (t : Term)
    (r : List OpTerm) (pairs : List Pair) (d : Nat) (st : ESt) :
    (∀ u st', evalExpr fs file stack load (.mk t r) pairs d st = .ok (u, st') →
      ∃ v st1 ws st2 tree, evalTerm fs file stack load t pairs d st = .ok (v, st1) ∧
        evalOperands fs file stack load r pairs d st1 = .ok (ws, st2) ∧ SumTree v ws tree ∧ TreeValue tree u) ∧
    (∀ v st1 ws st2 tree u, evalTerm fs file stack load t pairs d st = .ok (v, st1) →
      evalOperands fs file stack load r pairs d st1 = .ok (ws, st2) → SumTree v ws tree → TreeValue tree u →
      ∃ u' st', evalExpr fs file stack load (.mk t r) pairs d st = .ok (u', st') ∧ u'.data = u.data) := by
  constructor
  · intro u st' h
    obtain ⟨v, st1, ws, st2, h1, h2, h3⟩ := (evalExpr_split t r u st st').1 h
    obtain ⟨tree, ht⟩ := sumTree_exists v ws
    exact ⟨v, st1, ws, st2, tree, h1, h2, ht, tree_of_chain ht h3⟩
  · intro v st1 ws st2 tree u h1 h2 ht hv
    obtain ⟨p, sums, u', st', h3, h4, -, h5⟩ := chain_of_tree (file := file) ht hv st2
    refine ⟨u', st', (evalExpr_split t r u' st st').2 ⟨v, st1, ws, st2, h1, h2, ?_⟩, h5⟩
    unfold chainVals
    rw [EM.bind_ok (h3 st2)]
    exact h4

/-- The text of a chain of names. -/
def chainText (x : Str) (r : List (BinOp × Str)) : Str := x ++ r.flatMap (fun p => opChar p.1 :: p.2)

/-- The names of the chain are fields with these values. -/
def ChainValues (ps : List Pair) (r : List (BinOp × Str)) (ws : List (BinOp × Value)) : Prop :=
  List.Forall₂ (fun p q => p.1 = q.1 ∧ FirstNamed ps p.2 q.2) r ws

theorem spChain : ∀ {r : List (BinOp × Str)}, (∀ p ∈ r, FieldName p.2) →
    SpOps (r.map (fun p => .mk p.1 (.name p.2))) (r.flatMap (fun p => opChar p.1 :: p.2))
  | [], _ => .nil
  | (op, x) :: r, h => by
    have := SpOps.cons (op := op) (.name (h (op, x) (by simp)).varName)
      (spChain (r := r) (fun p hp => h p (by simp [hp])))
    simpa using this

/-- C28: let `from_str` read `text` as `o`, and let `x₀`, `x₁`, … be fields of `o` with values `v`, `ws`.  The text
continued with the definition `y:x₀∘x₁∘x₂…` (any number of operators, `y` a new field name) is read as `o` with a
further field holding the value of the chain's reading; and it is rejected, with an operator error or the error
for a division by zero, exactly when the reading has no value because one of its operations has none. -/
theorem c28_chain (fs : FS) (rt : Rt) (text : Str) (o : Obj) (s : PState)
    (h : fromStr fs text rt = .ok o s) (x y : Str) (r : List (BinOp × Str)) (v : Value)
    (ws : List (BinOp × Value)) (hx : FirstNamed o.pairs x v) (hr : ChainValues o.pairs r ws)
    (hy : FieldName y) (hn : NotNamed o.pairs y) (t : OpTree) (ht : SumTree v ws t) :
    (∀ u, TreeValue t u → ∃ o' s' u',
      fromStr fs (text ++ c!"\n" ++ y ++ c!":" ++ chainText x r) rt = .ok o' s' ∧
      o'.pairs = o.pairs ++ [.mk y u'] ∧ o'.parent = o.parent ∧ TreeValue t u' ∧ u'.data = u.data) ∧
    ((¬ ∃ u, TreeValue t u) → ∃ k,
      fromStr fs (text ++ c!"\n" ++ y ++ c!":" ++ chainText x r) rt = .err ⟨none, k⟩ ∧
      ((∃ op t1 t2 l c, k = .binaryOperatorError t1 t2 op l c) ∨ ∃ l c, k = .invalidNumeric l c)) := by
  have hrun : Runs fs rt (none, text) (.ok o s) := h ▸ Runs.str text
  have fx := parsed_fieldName hrun hx
  have fr : ∀ p ∈ r, FieldName p.2 := by
    clear ht
    unfold ChainValues at hr
    induction hr with
    | nil => simp
    | cons h1 h2 ih =>
      intro p hp
      rcases List.mem_cons.1 hp with rfl | hp
      · exact parsed_fieldName hrun h1.2
      · exact ih p hp
  obtain ⟨d, st, -, -, -, -, hc⟩ := continue_field fs rt text o s h
  have hm := hc y _ _ hy (SpExpr.mk (.name fx.varName) (spChain fr))
  have hk : List.Forall₂ (Known fs none [] (theLoader fs) o.pairs 1) (r.map (fun p => .mk p.1 (.name p.2))) ws := by
    rw [List.forall₂_map_left_iff]
    refine List.Forall₂.imp ?_ hr
    intro p q ⟨h1, h2⟩
    refine ⟨_, by rw [← h1], fun st => ?_⟩
    simp only [evalTerm, evalName_first (parsed_fieldName hrun h2) h2]; rfl
  have h1 : ∀ st, evalTerm fs none [] (theLoader fs) (.name x) o.pairs 1 st = .ok (v, st) := fun st => by
    simp only [evalTerm, evalName_first fx hx]; rfl
  rw [if_neg (notNamed_mem hn), evalExpr_known h1 hk] at hm
  constructor
  · intro u hu
    obtain ⟨p, sums, u', st', h2, h3, h4, h5⟩ := chain_of_tree (file := none) ht hu st
    have : chainVals none v ws st = .ok (u', st') := by
      unfold chainVals
      rw [EM.bind_ok (h2 st)]
      exact h3
    rw [this] at hm
    obtain ⟨s', h6, -⟩ := hm.of_ok
    exact ⟨_, s', u', h6, rfl, rfl, h4, h5⟩
  · intro hu
    cases hcv : chainVals none v ws st with
    | ok z => obtain ⟨u, st'⟩ := z; exact absurd ⟨u, tree_of_chain ht hcv⟩ hu
    | error e =>
      rw [hcv] at hm
      obtain ⟨pe, h2, h3⟩ := hm.of_error
      rcases chainVals_error hcv with ⟨op, t1, t2, rfl⟩ | rfl
      · cases h3 with
        | sem hk => cases hk; exact ⟨_, h2, .inl ⟨_, _, _, _, _, rfl⟩⟩
      · cases h3 with
        | sem hk => cases hk; exact ⟨_, h2, .inr ⟨_, _, rfl⟩⟩

end

/-! ## Examples -/

section
attribute [local instance] sampleUnicode

/-- A text that is read, with fields `a` = 7, `b` = 2, `c` = 0 and `d` = "x". -/
def operands : Str := c!"a: 7 b: 2 c: 0 d: \"x\""

theorem operands_read : ∃ o s, fromStr noFiles operands startRt = .ok o s ∧
    o.pairs = [.mk c!"a" (.int 7), .mk c!"b" (.int 2), .mk c!"c" (.int 0), .mk c!"d" (.str c!"x")] := by
  obtain ⟨s, h⟩ := Res.gives_ok (r := fromStr noFiles operands startRt) (o := .mk 0 [.mk c!"a" (.int 7),
    .mk c!"b" (.int 2), .mk c!"c" (.int 0), .mk c!"d" (.str c!"x")] none) (by decide +kernel)
  exact ⟨_, s, h, rfl⟩

/-- `a+b*a-b` is read as `(a+(b*a))-b`. -/
example : SumTree (.int 7) [(.plus, .int 2), (.mult, .int 7), (.minus, .int 2)]
    (.node .minus (.node .plus (.leaf (.int 7)) (.node .mult (.leaf (.int 2)) (.leaf (.int 7)))) (.leaf (.int 2))) :=
  .plus (r := [(.plus, .int 2), (.mult, .int 7)]) (q := [])
    (.plus (r := []) (q := [(.mult, .int 7)]) (.product (.one _)) (.inl rfl) (.times (.one _) (.inl rfl)))
    (.inr rfl) (.one _)

/-- … and has the value 19. -/
example : ∃ o s, fromStr noFiles (operands ++ c!"\n" ++ c!"y" ++ c!":" ++
    chainText c!"a" [(.plus, c!"b"), (.mult, c!"a"), (.minus, c!"b")]) startRt = .ok o s ∧
    Pair.mk c!"y" (.int 19) ∈ o.pairs := by
  obtain ⟨o, s, h, hp⟩ := operands_read
  have hc := (c28_chain noFiles startRt operands o s h c!"a" c!"y" [(.plus, c!"b"), (.mult, c!"a"), (.minus, c!"b")]
    (.int 7) [(.plus, .int 2), (.mult, .int 7), (.minus, .int 2)]
    (hp ▸ ⟨[], _, rfl, by simp⟩)
    (hp ▸ .cons ⟨rfl, [.mk c!"a" (.int 7)], _, rfl, by simp [Pair.field]⟩
      (.cons ⟨rfl, [], _, rfl, by simp⟩ (.cons ⟨rfl, [.mk c!"a" (.int 7)], _, rfl, by simp [Pair.field]⟩ .nil)))
    (sampleFieldName 'y' (by decide)) (hp ▸ by simp [NotNamed, Pair.field])
    (.node .minus (.node .plus (.leaf (.int 7)) (.node .mult (.leaf (.int 2)) (.leaf (.int 7)))) (.leaf (.int 2)))
    (.plus (r := [(.plus, .int 2), (.mult, .int 7)]) (q := [])
    (.plus (r := []) (q := [(.mult, .int 7)]) (.product (.one _)) (.inl rfl) (.times (.one _) (.inl rfl)))
    (.inr rfl) (.one _))).1 (.int 19)
    (.node (.node (.leaf _) (.node (.leaf _) (.leaf _) (.mulInt 2 7)) (.addInt 7 (2 * 7))) (.leaf _)
      (.subInt (7 + 2 * 7) 2))
  obtain ⟨o', s', u', h1, h2, -, -, h3⟩ := hc
  refine ⟨o', s', h1, ?_⟩
  obtain rfl : u' = .int 19 := data_int h3.symm
  rw [h2]; simp

/-- A reading without a value: `a+d`, an Int and a Str. -/
example : ¬ ∃ u, TreeValue (.node .plus (.leaf (.int 7)) (.leaf (.str c!"x"))) u := by
  rintro ⟨u, h⟩
  cases h with
  | node h1 h2 h3 => cases h1; cases h2; exact ((table_iff _ _ _ _).1 h3).elim

/-- Dividing by the field `c`, which is 0. -/
example : ∃ l c, fromStr noFiles (operands ++ c!"\n" ++ c!"y" ++ c!":" ++ (c!"a" ++ opChar .div :: c!"c")) startRt =
    .err ⟨none, .invalidNumeric l c⟩ := by
  obtain ⟨o, s, h, hp⟩ := operands_read
  exact (c30_division_by_zero noFiles startRt operands o s h c!"a" c!"c" c!"y" (.int 7) (.int 0)
    (hp ▸ ⟨[], _, rfl, by simp⟩)
    (hp ▸ ⟨[.mk c!"a" (.int 7), .mk c!"b" (.int 2)], _, rfl, by simp [Pair.field]⟩)
    (sampleFieldName 'y' (by decide)) (hp ▸ by simp [NotNamed, Pair.field]) .div).2
    (.inl ⟨rfl, ⟨_, .int 7⟩, .int 0⟩)

/-- The table on numbers, strings, arrays and impossible combinations. -/
example : OpTable .mod (.int (-7)) (.int 2) (.value (.int (-1))) :=
  .mod (q := -3) (by decide) (by decide) (by decide) (by decide)
example : OpTable .div (.int 1) (.int 2) (.value (.frac (1 / 2))) := by
  have := OpTable.div (.int 1) (.int 2) (by norm_num)
  simpa using this
example : OpTable .plus (.arr 0 .any []) (.arr 1 .int [.int 1]) (.value (.arr 5 .int [.int 1])) :=
  .concatArr (xs := []) (lcr_pair.2 ⟨false, by simp [Ty.mostSpecific, Ty.hasAny]⟩)
example : OpTable .mod (.int 1) (.frac 2) (.mismatch .frac .frac) :=
  (table_iff _ _ _ _).2 ⟨rfl, rfl⟩

end

end Over
