import Verif.Lemmas.Laws
import Verif.Props.Scope

/-!
# C85: the usual laws of arithmetic and concatenation hold in documents

At any place (`ReadsAt`), let `a`, `b`, `c` be fields with any values.  Over has no brackets in formulas, so `a+(b+c)` is
written with an auxiliary field `z:b+c`.  `Agree` says that both ways of writing are accepted or neither is, and that the
values they give are the same data.
-/

namespace Over

section
variable [Unicode]

omit [Unicode] in
theorem firstNamed_append {ps qs : List Pair} {a : Str} {v : Value} (h : FirstNamed ps a v) :
    FirstNamed (ps ++ qs) a v := by
  obtain ⟨l, r, rfl, hl⟩ := h
  exact ⟨l, r ++ qs, by simp, hl⟩

omit [Unicode] in
theorem firstNamed_new {ps : List Pair} {z : Str} {w : Value} (h : NotNamed ps z) : FirstNamed (ps ++ [.mk z w]) z w :=
  ⟨ps, [], rfl, h⟩

theorem sp1 {a b : Str} (ha : FieldName a) (hb : FieldName b) (op : BinOp) :
    SpExpr (.mk (.name a) ([(op, b)].map (fun p => .mk p.1 (.name p.2)))) (a ++ [opChar op] ++ b) := by
  simpa using spBinary ha hb op

theorem sp2 {a b c : Str} (ha : FieldName a) (hb : FieldName b) (hc : FieldName c) (op op' : BinOp) :
    SpExpr (.mk (.name a) ([(op, b), (op', c)].map (fun p => .mk p.1 (.name p.2))))
      (a ++ [opChar op] ++ b ++ [opChar op'] ++ c) := by
  have := SpExpr.mk (.name ha.varName) (spChain (r := [(op, b), (op', c)]) (by
    intro p hp; simp at hp; rcases hp with rfl | rfl <;> assumption))
  simpa using this

theorem sp3 {a b c d : Str} (ha : FieldName a) (hb : FieldName b) (hc : FieldName c) (hd : FieldName d)
    (op op' op'' : BinOp) :
    SpExpr (.mk (.name a) ([(op, b), (op', c), (op'', d)].map (fun p => .mk p.1 (.name p.2))))
      (a ++ [opChar op] ++ b ++ [opChar op'] ++ c ++ [opChar op''] ++ d) := by
  have := SpExpr.mk (.name ha.varName) (spChain (r := [(op, b), (op', c), (op'', d)]) (by
    intro p hp; simp at hp; rcases hp with rfl | rfl | rfl <;> assumption))
  simpa using this

omit [Unicode] in
theorem FormulaMeans.congr {fs : FS} {d : Nat} {ps : List Pair} {ex : Expr} {P Q : Value → Prop} [Unicode]
    (h : FormulaMeans fs d ps ex P) (hpq : ∀ v, P v ↔ Q v) : FormulaMeans fs d ps ex Q := by
  have : P = Q := funext fun v => propext (hpq v)
  exact this ▸ h

omit [Unicode] in
theorem sumTree_one (op : BinOp) (v w : Value) : SumTree v [(op, w)] (.node op (.leaf v) (.leaf w)) := by
  cases h : op.tight with
  | true => exact .product (.times (r := []) (.one v) ((tight_iff op).1 h))
  | false => exact .plus (r := []) (.product (.one v)) ((not_tight_iff op).1 h) (.one w)

theorem means1 {fs : FS} {d : Nat} {ps : List Pair} {a b : Str} {v w : Value} (ha : FieldName a) (hb : FieldName b)
    (hv : FirstNamed ps a v) (hw : FirstNamed ps b w) (op : BinOp) :
    FormulaMeans fs d ps (.mk (.name a) ([(op, b)].map (fun p => .mk p.1 (.name p.2)))) (fun u => OpTable op v w (.value u)) := by
  refine (means_chain (ws := [(op, w)]) ha hv (by intro p hp; simp at hp; subst hp; exact hb)
    (.cons ⟨rfl, hw⟩ .nil) (sumTree_one op v w)).congr ?_
  intro u
  constructor
  · intro h
    obtain ⟨x, y, h1, h2, h3⟩ := h.node_inv
    cases h1.leaf_inv; cases h2.leaf_inv
    exact h3
  · exact fun h => .node (.leaf _) (.leaf _) h

theorem means2 {fs : FS} {d : Nat} {ps : List Pair} {a b c : Str} {v w x : Value} (ha : FieldName a) (hb : FieldName b)
    (hc : FieldName c) (hv : FirstNamed ps a v) (hw : FirstNamed ps b w) (hx : FirstNamed ps c x) (op op' : BinOp)
    (ho : SumTree v [(op, w), (op', x)] (.node op' (.node op (.leaf v) (.leaf w)) (.leaf x))) :
    FormulaMeans fs d ps (.mk (.name a) ([(op, b), (op', c)].map (fun p => .mk p.1 (.name p.2)))) (Left op op' v w x) := by
  refine (means_chain (ws := [(op, w), (op', x)]) ha hv
    (by intro p hp; simp at hp; rcases hp with rfl | rfl <;> assumption)
    (.cons ⟨rfl, hw⟩ (.cons ⟨rfl, hx⟩ .nil)) ho).congr ?_
  intro u
  constructor
  · intro h
    obtain ⟨s, y, h1, h2, h3⟩ := h.node_inv
    cases h2.leaf_inv
    obtain ⟨x, y, h4, h5, h6⟩ := h1.node_inv
    cases h4.leaf_inv; cases h5.leaf_inv
    exact ⟨s, h6, h3⟩
  · rintro ⟨s, h1, h2⟩
    exact .node (.node (.leaf _) (.leaf _) h1) (.leaf _) h2

/-- C28 at every place: a chain of fields, of any length, has the value of its reading, and none if its reading has none. -/
theorem c28_chain_anywhere (fs : FS) (rt : Rt) (A : List (Str × Str)) (u : Str) (p : Obj) (h : ReadsAt fs rt A u p)
    (x y : Str) (r : List (BinOp × Str)) (v : Value) (ws : List (BinOp × Value)) (hx : FieldAt p x v)
    (hr : ∀ q ∈ r, FieldName q.2) (hw : ChainValues p.pairs r ws) (hy : FieldName y) (hn : NotNamed p.pairs y)
    (t : OpTree) (ht : SumTree v ws t) :
    (∀ q, Gives fs rt A u p y (chainText x r) q → TreeValue t q) ∧
    ((∃ q, TreeValue t q) → ∃ q, Gives fs rt A u p y (chainText x r) q) :=
  gives_means h hy hn (SpExpr.mk (.name hx.name.varName) (spChain hr)) (means_chain hx.name hx.value hr hw ht)

/-- A law of the form `a∘b∘c = a∘'(b∘''c)`. -/
theorem regroup_at {fs : FS} {rt : Rt} {A : List (Str × Str)} {u : Str} {p : Obj} (h : ReadsAt fs rt A u p)
    {a b c y z : Str} {v w x : Value} (ha : FieldAt p a v) (hb : FieldAt p b w) (hc : FieldAt p c x)
    (hn : NewNames p y z) (op op' op2 : BinOp)
    (ho : SumTree v [(op, w), (op', x)] (.node op' (.node op (.leaf v) (.leaf w)) (.leaf x)))
    (hl : ViaAgree (Left op op' v w x) (fun q => OpTable op2 w x (.value q)) (fun q r => OpTable op v q (.value r))) :
    Agree (Gives fs rt A u p y (a ++ [opChar op] ++ b ++ [opChar op'] ++ c))
      (GivesVia fs rt A u p z (b ++ [opChar op2] ++ c) y (a ++ [opChar op] ++ z)) :=
  law_at h hn.zName hn.yName hn.zNew hn.yNew hn.ne (sp2 ha.name hb.name hc.name op op') (sp1 hb.name hc.name op2)
    (sp1 ha.name hn.zName op) (means2 ha.name hb.name hc.name ha.value hb.value hc.value op op' ho)
    (means1 hb.name hc.name hb.value hc.value op2)
    (fun _ => means1 ha.name hn.zName (firstNamed_append ha.value) (firstNamed_new hn.zNew) op) hl

omit [Unicode] in
theorem sums_tree (op op' : BinOp) (h : op = .plus ∨ op = .minus) (h' : op' = .plus ∨ op' = .minus) (v w x : Value) :
    SumTree v [(op, w), (op', x)] (.node op' (.node op (.leaf v) (.leaf w)) (.leaf x)) :=
  .plus (r := [(op, w)]) (.plus (r := []) (.product (.one v)) h (.one w)) h' (.one x)

omit [Unicode] in
theorem products_tree (op op' : BinOp) (h : op = .mult ∨ op = .div ∨ op = .mod)
    (h' : op' = .mult ∨ op' = .div ∨ op' = .mod) (v w x : Value) :
    SumTree v [(op, w), (op', x)] (.node op' (.node op (.leaf v) (.leaf w)) (.leaf x)) :=
  .product (.times (r := [(op, w)]) (.times (r := []) (.one v) h) h')

/-- C85: `a+b+c` and `a+(b+c)` agree, for numbers, strings and arrays, and are rejected alike. -/
theorem c85_sums_regroup (fs : FS) (rt : Rt) (A : List (Str × Str)) (u : Str) (p : Obj) (h : ReadsAt fs rt A u p)
    (a b c y z : Str) (va vb vc : Value) (ha : FieldAt p a va) (hb : FieldAt p b vb) (hc : FieldAt p c vc)
    (hn : NewNames p y z) :
    Agree (Gives fs rt A u p y (a ++ c!"+" ++ b ++ c!"+" ++ c))
      (GivesVia fs rt A u p z (b ++ c!"+" ++ c) y (a ++ c!"+" ++ z)) :=
  regroup_at h ha hb hc hn .plus .plus .plus (sums_tree _ _ (.inl rfl) (.inl rfl) _ _ _) (sums_regroup va vb vc)

/-- C85: `a-b-c` and `a-(b+c)` agree. -/
theorem c85_differences_regroup (fs : FS) (rt : Rt) (A : List (Str × Str)) (u : Str) (p : Obj) (h : ReadsAt fs rt A u p)
    (a b c y z : Str) (va vb vc : Value) (ha : FieldAt p a va) (hb : FieldAt p b vb) (hc : FieldAt p c vc)
    (hn : NewNames p y z) :
    Agree (Gives fs rt A u p y (a ++ c!"-" ++ b ++ c!"-" ++ c))
      (GivesVia fs rt A u p z (b ++ c!"+" ++ c) y (a ++ c!"-" ++ z)) :=
  regroup_at h ha hb hc hn .minus .minus .plus (sums_tree _ _ (.inr rfl) (.inr rfl) _ _ _)
    (differences_regroup va vb vc)

/-- C85: `a*b*c` and `a*(b*c)` agree. -/
theorem c85_products_regroup (fs : FS) (rt : Rt) (A : List (Str × Str)) (u : Str) (p : Obj) (h : ReadsAt fs rt A u p)
    (a b c y z : Str) (va vb vc : Value) (ha : FieldAt p a va) (hb : FieldAt p b vb) (hc : FieldAt p c vc)
    (hn : NewNames p y z) :
    Agree (Gives fs rt A u p y (a ++ c!"*" ++ b ++ c!"*" ++ c))
      (GivesVia fs rt A u p z (b ++ c!"*" ++ c) y (a ++ c!"*" ++ z)) :=
  regroup_at h ha hb hc hn .mult .mult .mult (products_tree _ _ (.inl rfl) (.inl rfl) _ _ _) (products_regroup va vb vc)

/-- C85: `a/b/c` and `a/(b*c)` agree; they are rejected alike, in particular when `b` or `c` is 0. -/
theorem c85_quotients_regroup (fs : FS) (rt : Rt) (A : List (Str × Str)) (u : Str) (p : Obj) (h : ReadsAt fs rt A u p)
    (a b c y z : Str) (va vb vc : Value) (ha : FieldAt p a va) (hb : FieldAt p b vb) (hc : FieldAt p c vc)
    (hn : NewNames p y z) :
    Agree (Gives fs rt A u p y (a ++ c!"/" ++ b ++ c!"/" ++ c))
      (GivesVia fs rt A u p z (b ++ c!"*" ++ c) y (a ++ c!"/" ++ z)) :=
  regroup_at h ha hb hc hn .div .div .mult (products_tree _ _ (.inr (.inl rfl)) (.inr (.inl rfl)) _ _ _)
    (quotients_regroup va vb vc)

/-- C85: `a*b+a*c` and `a*(b+c)` agree. -/
theorem c85_distribute (fs : FS) (rt : Rt) (A : List (Str × Str)) (u : Str) (p : Obj) (h : ReadsAt fs rt A u p)
    (a b c y z : Str) (va vb vc : Value) (ha : FieldAt p a va) (hb : FieldAt p b vb) (hc : FieldAt p c vc)
    (hn : NewNames p y z) :
    Agree (Gives fs rt A u p y (a ++ c!"*" ++ b ++ c!"+" ++ a ++ c!"*" ++ c))
      (GivesVia fs rt A u p z (b ++ c!"+" ++ c) y (a ++ c!"*" ++ z)) := by
  refine law_at h hn.zName hn.yName hn.zNew hn.yNew hn.ne (sp3 ha.name hb.name ha.name hc.name .mult .plus .mult)
    (sp1 hb.name hc.name .plus) (sp1 ha.name hn.zName .mult) ?_ (means1 hb.name hc.name hb.value hc.value .plus)
    (fun q => means1 ha.name hn.zName (firstNamed_append ha.value) (firstNamed_new hn.zNew) .mult) (distribute va vb vc)
  refine (means_chain (ws := [(.mult, vb), (.plus, va), (.mult, vc)])
    (t := .node .plus (.node .mult (.leaf va) (.leaf vb)) (.node .mult (.leaf va) (.leaf vc))) ha.name ha.value
    (by intro q hq; simp at hq; rcases hq with rfl | rfl | rfl; exacts [hb.name, ha.name, hc.name])
    (.cons ⟨rfl, hb.value⟩ (.cons ⟨rfl, ha.value⟩ (.cons ⟨rfl, hc.value⟩ .nil)))
    (.plus (r := [(.mult, vb)]) (q := [(.mult, vc)]) (.product (.times (r := []) (.one va) (.inl rfl))) (.inl rfl)
      (.times (r := []) (.one va) (.inl rfl)))).congr ?_
  intro v
  constructor
  · intro h
    obtain ⟨s, t, h1, h2, h3⟩ := h.node_inv
    obtain ⟨_, _, h4, h5, h6⟩ := h1.node_inv
    cases h4.leaf_inv; cases h5.leaf_inv
    obtain ⟨_, _, h4, h5, h7⟩ := h2.node_inv
    cases h4.leaf_inv; cases h5.leaf_inv
    exact ⟨s, t, h6, h7, h3⟩
  · rintro ⟨s, t, h1, h2, h3⟩
    exact .node (.node (.leaf _) (.leaf _) h1) (.node (.leaf _) (.leaf _) h2) h3

/-- C85: `a-b` and `a+(-b)` agree. -/
theorem c85_subtract_adds (fs : FS) (rt : Rt) (A : List (Str × Str)) (u : Str) (p : Obj) (h : ReadsAt fs rt A u p)
    (a b y z : Str) (va vb : Value) (ha : FieldAt p a va) (hb : FieldAt p b vb) (hn : NewNames p y z) :
    Agree (Gives fs rt A u p y (a ++ c!"-" ++ b)) (GivesVia fs rt A u p z (c!"-" ++ b) y (a ++ c!"+" ++ z)) := by
  have hs : SpExpr (.mk (.neg (.name b)) []) (c!"-" ++ b) := by
    have := SpExpr.mk (.neg (.name hb.name.varName)) .nil
    simpa using this
  exact law_at h hn.zName hn.yName hn.zNew hn.yNew hn.ne (sp1 ha.name hb.name .minus) hs (sp1 ha.name hn.zName .plus)
    (means1 ha.name hb.name ha.value hb.value .minus) (means_neg hb.name hb.value)
    (fun q => means1 ha.name hn.zName (firstNamed_append ha.value) (firstNamed_new hn.zNew) .plus) (subtract_adds va vb)

/-- C85: `a*b` and `b*a` agree. -/
theorem c85_products_commute (fs : FS) (rt : Rt) (A : List (Str × Str)) (u : Str) (p : Obj) (h : ReadsAt fs rt A u p)
    (a b y : Str) (va vb : Value) (ha : FieldAt p a va) (hb : FieldAt p b vb) (hy : FieldName y)
    (hn : NotNamed p.pairs y) :
    Agree (Gives fs rt A u p y (a ++ c!"*" ++ b)) (Gives fs rt A u p y (b ++ c!"*" ++ a)) := by
  refine agree_at h hy hn (sp1 ha.name hb.name .mult) (sp1 hb.name ha.name .mult)
    (means1 ha.name hb.name ha.value hb.value .mult) (means1 hb.name ha.name hb.value ha.value .mult) ⟨⟨?_, ?_⟩, ?_⟩
  · rintro ⟨v, hv⟩; exact ⟨v, products_commute hv⟩
  · rintro ⟨v, hv⟩; exact ⟨v, products_commute hv⟩
  · intro v w hv hw
    exact (c29_table_total .mult va vb).2 _ _ hv (products_commute hw)

/-- C85: `a+b` is accepted exactly when `b+a` is (strings and arrays included); for numbers they agree. -/
theorem c85_sums_commute (fs : FS) (rt : Rt) (A : List (Str × Str)) (u : Str) (p : Obj) (h : ReadsAt fs rt A u p)
    (a b y : Str) (va vb : Value) (ha : FieldAt p a va) (hb : FieldAt p b vb) (hy : FieldName y)
    (hn : NotNamed p.pairs y) :
    ((∃ v, Gives fs rt A u p y (a ++ c!"+" ++ b) v) ↔ ∃ v, Gives fs rt A u p y (b ++ c!"+" ++ a) v) ∧
    ((∃ x, IsNumber va x) → Agree (Gives fs rt A u p y (a ++ c!"+" ++ b)) (Gives fs rt A u p y (b ++ c!"+" ++ a))) := by
  obtain ⟨h1, h2⟩ := gives_means h hy hn (sp1 ha.name hb.name .plus) (means1 ha.name hb.name ha.value hb.value .plus)
  obtain ⟨h3, h4⟩ := gives_means h hy hn (sp1 hb.name ha.name .plus) (means1 hb.name ha.name hb.value ha.value .plus)
  have e : (∃ v, Gives fs rt A u p y (a ++ c!"+" ++ b) v) ↔ ∃ v, Gives fs rt A u p y (b ++ c!"+" ++ a) v := by
    constructor
    · rintro ⟨v, hv⟩; obtain ⟨w, hw, -⟩ := sums_commute (h1 v hv); exact h4 ⟨w, hw⟩
    · rintro ⟨v, hv⟩; obtain ⟨w, hw, -⟩ := sums_commute (h3 v hv); exact h2 ⟨w, hw⟩
  refine ⟨e, fun hx => ⟨e, fun v w hv hw => ?_⟩⟩
  obtain ⟨w', hw', he⟩ := sums_commute (h1 v hv)
  have := (c29_table_total .plus vb va).2 _ _ hw' (h3 w hw)
  rw [he hx] at this
  exact this

/-- The number a field holds, and whether it is a Frac (0 for a missing field). -/
def numberOf (p : Obj) (x : Str) : Rat × Bool :=
  match p.pairs.find? (fun q => decide (q.field = x)) with
  | some (.mk _ (.int i)) => (i, false)
  | some (.mk _ (.frac q)) => (q, true)
  | _ => (0, false)

omit [Unicode] in
theorem firstNamed_find? {ps : List Pair} {x : Str} {v : Value} (h : FirstNamed ps x v) :
    ps.find? (fun q => decide (q.field = x)) = some (.mk x v) := by
  obtain ⟨l, r, rfl, hl⟩ := h
  rw [List.find?_append, List.find?_eq_none.2 (by intro q hq; simpa using hl q hq)]
  simp [Pair.field]

theorem numberField_num {p : Obj} {x : Str} (h : NumberField p x) :
    ∃ v, FieldAt p x v ∧ Num v (numberOf p x).1 (numberOf p x).2 := by
  obtain ⟨v, q, hv, hq⟩ := h
  refine ⟨v, hv, ?_⟩
  unfold numberOf
  rw [firstNamed_find? hv.value]
  cases hq <;> constructor

/-- The number of a chain at a place. -/
theorem joined_num {fs : FS} {p : Obj} {d : Nat} (op : BinOp) (ho : op = .plus ∨ op = .mult) {x : Str} {xs : List Str}
    (hx : NumberField p x) (hxs : ∀ n ∈ xs, NumberField p n) :
    SpExpr (.mk (.name x) ((xs.map (fun n => (op, n))).map (fun p => .mk p.1 (.name p.2)))) (joined op x xs) ∧
    ∃ P, FormulaMeans fs d p.pairs (.mk (.name x) ((xs.map (fun n => (op, n))).map (fun p => .mk p.1 (.name p.2)))) P ∧
      (∃ v, P v) ∧ ∀ v, P v → Num v
        (if op = .plus then ((x :: xs).map (fun n => (numberOf p n).1)).sum
          else ((x :: xs).map (fun n => (numberOf p n).1)).prod) ((x :: xs).any (fun n => (numberOf p n).2)) := by
  obtain ⟨v, hv, hn⟩ := numberField_num hx
  have hf : ∀ q ∈ xs.map (fun n => (op, n)), FieldName q.2 := by
    intro q hq
    obtain ⟨n, hn, rfl⟩ := List.mem_map.1 hq
    obtain ⟨_, _, h, _⟩ := hxs n hn
    exact h.name
  refine ⟨?_, ?_⟩
  · have := SpExpr.mk (.name hv.name.varName) (spChain hf)
    rwa [List.flatMap_map] at this
  -- the values of the operands
  have hw : ∃ ws : List Value, ChainValues p.pairs (xs.map (fun n => (op, n))) (ws.map (fun w => (op, w))) ∧
      List.Forall₂ (fun n w => Num w (numberOf p n).1 (numberOf p n).2) xs ws := by
    clear hf
    induction xs with
    | nil => exact ⟨[], .nil, .nil⟩
    | cons n xs ih =>
      obtain ⟨ws, h1, h2⟩ := ih (fun n hn => hxs n (by simp [hn]))
      obtain ⟨w, hw, hwn⟩ := numberField_num (hxs n (by simp))
      exact ⟨w :: ws, .cons ⟨rfl, hw.value⟩ h1, .cons hwn h2⟩
  obtain ⟨ws, h1, h2⟩ := hw
  let N : Value → Rat := fun | .int i => i | .frac q => q | _ => 0
  let F : Value → Bool := fun | .frac _ => true | _ => false
  have hNF : ∀ {w q g}, Num w q g → q = N w ∧ g = F w := by intro w q g h; cases h <;> exact ⟨rfl, rfl⟩
  have hws : ∀ w ∈ ws, Num w (N w) (F w) := by
    intro w hw
    clear h1
    induction h2 with
    | nil => simp at hw
    | cons h _ ih =>
      rcases List.mem_cons.1 hw with rfl | hw
      · obtain ⟨e1, e2⟩ := hNF h
        rw [← e1, ← e2]; exact h
      · exact ih (fun n hn => hxs n (by simp [hn])) (fun q hq => hf q (by simp at hq ⊢; exact .inr hq)) hw
  have e1 : xs.map (fun n => (numberOf p n).1) = ws.map N := by
    clear h1 hws hxs hf
    induction h2 with
    | nil => rfl
    | cons h _ ih => rw [List.map_cons, List.map_cons, ih, (hNF h).1]
  have e2 : xs.any (fun n => (numberOf p n).2) = ws.any F := by
    clear h1 hws hxs hf e1
    induction h2 with
    | nil => rfl
    | cons h _ ih => rw [List.any_cons, List.any_cons, ih, (hNF h).2]
  rw [List.map_cons, List.any_cons, List.sum_cons, List.prod_cons, e1, e2]
  rcases ho with rfl | rfl
  · obtain ⟨t, h3, h4, h5⟩ := sum_chain hn ws N F hws
    exact ⟨_, means_chain hv.name hv.value hf h1 h3, h4, by simpa using h5⟩
  · obtain ⟨t, h3, h4, h5⟩ := product_chain hn ws N F hws
    exact ⟨_, means_chain hv.name hv.value hf h1 (.product h3), h4, by simpa using h5⟩

/-- C85: a sum, or a product, of any number of numbers has the same value in any order. -/
theorem c85_any_order (fs : FS) (rt : Rt) (A : List (Str × Str)) (u : Str) (p : Obj) (h : ReadsAt fs rt A u p)
    (op : BinOp) (ho : op = .plus ∨ op = .mult) (x x' y : Str) (xs xs' : List Str) (hx : ∀ n ∈ x :: xs, NumberField p n)
    (hp : (x :: xs).Perm (x' :: xs')) (hy : FieldName y) (hn : NotNamed p.pairs y) :
    ∃ v, Gives fs rt A u p y (joined op x xs) v ∧ Gives fs rt A u p y (joined op x' xs') v ∧
      ∀ w, Gives fs rt A u p y (joined op x xs) w ∨ Gives fs rt A u p y (joined op x' xs') w → w = v := by
  have hx' : ∀ n ∈ x' :: xs', NumberField p n := fun n hn => hx n (hp.mem_iff.2 hn)
  obtain ⟨s1, P, hP, eP, nP⟩ := joined_num (fs := fs) (d := 1 + A.length) (xs := xs) op ho (hx x (by simp))
    (fun n hn => hx n (by simp [hn]))
  obtain ⟨s2, Q, hQ, eQ, nQ⟩ := joined_num (fs := fs) (d := 1 + A.length) (xs := xs') op ho (hx' x' (by simp))
    (fun n hn => hx' n (by simp [hn]))
  obtain ⟨h1, h2⟩ := gives_means h hy hn s1 hP
  obtain ⟨h3, h4⟩ := gives_means h hy hn s2 hQ
  have e1 : (x' :: xs').any (fun n => (numberOf p n).2) = (x :: xs).any (fun n => (numberOf p n).2) := by
    rw [Bool.eq_iff_iff, List.any_eq_true, List.any_eq_true]
    exact ⟨fun ⟨n, hn, h⟩ => ⟨n, hp.mem_iff.2 hn, h⟩, fun ⟨n, hn, h⟩ => ⟨n, hp.mem_iff.1 hn, h⟩⟩
  rw [e1, ← (hp.map (fun n => (numberOf p n).1)).sum_eq, ← (hp.map (fun n => (numberOf p n).1)).prod_eq] at nQ
  obtain ⟨v, hv⟩ := h2 eP
  obtain ⟨w, hw⟩ := h4 eQ
  have hvw : w = v := (nQ w (h3 w hw)).eq (nP v (h1 v hv))
  subst hvw
  refine ⟨w, hv, hw, ?_⟩
  rintro w' (h5 | h5)
  · exact (nP w' (h1 w' h5)).eq (nP w (h1 w hv))
  · exact (nQ w' (h3 w' h5)).eq (nQ w (h3 w hw))

end

/-! ## Examples -/

section
attribute [local instance] sampleUnicode

/-- What the sample text becomes. -/
def lawsFields : List Pair :=
  [.mk c!"a" (.frac (mkRat 3 2)), .mk c!"b" (.int 2), .mk c!"s" (.str c!"x"), .mk c!"t" (.arr 0 .int [.int 1])]

/-- Inside the object `k`: a Frac, an Int, a Str and an Arr. -/
theorem lawsPlace : ReadsAt noFiles startRt [(c!"m: 1", c!"k")] c!"a: 1.5 b: 2 s: \"x\" t: [1]"
    (.mk 1 lawsFields none) := by
  obtain ⟨s1, h1⟩ : ∃ s, fromStr noFiles c!"m: 1" startRt = .ok (.mk 0 [.mk c!"m" (.int 1)] none) s :=
    Res.gives_ok (by decide +kernel)
  obtain ⟨s2, h2⟩ : ∃ s, fromStr noFiles c!"a: 1.5 b: 2 s: \"x\" t: [1]" startRt = .ok (.mk 1 lawsFields none) s :=
    Res.gives_ok (by decide +kernel)
  obtain ⟨s3, h3⟩ : ∃ s, fromStr noFiles (nest [(c!"m: 1", c!"k")] c!"a: 1.5 b: 2 s: \"x\" t: [1]") startRt =
      .ok (.mk 2 [.mk c!"m" (.int 1), .mk c!"k" (.obj (.mk 1 lawsFields none))] none) s :=
    Res.gives_ok (by decide +kernel)
  refine ⟨?_, wellFormed_of_read h2, _, s3, h3, .inside (ps := [.mk c!"m" (.int 1)]) rfl .here⟩
  intro l hl
  rw [List.mem_singleton.1 hl]
  exact ⟨wellFormed_of_read h1, sampleFieldName 'k' (by decide)⟩

theorem lawsA : FieldAt (.mk 1 lawsFields none) c!"a" (.frac (mkRat 3 2)) :=
  ⟨sampleFieldName 'a' (by decide), [], _, rfl, by simp⟩
theorem lawsB : FieldAt (.mk 1 lawsFields none) c!"b" (.int 2) :=
  ⟨sampleFieldName 'b' (by decide), [.mk c!"a" (.frac (mkRat 3 2))], _, rfl, by simp [Pair.field]⟩
theorem lawsT : FieldAt (.mk 1 lawsFields none) c!"t" (.arr 0 .int [.int 1]) :=
  ⟨sampleFieldName 't' (by decide), [.mk c!"a" (.frac (mkRat 3 2)), .mk c!"b" (.int 2), .mk c!"s" (.str c!"x")], _, rfl,
    by simp [Pair.field]⟩

theorem lawsNew : NewNames (.mk 1 lawsFields none) c!"y" c!"z" :=
  ⟨sampleFieldName 'y' (by decide), sampleFieldName 'z' (by decide), by simp [NotNamed, lawsFields, Obj.pairs, Pair.field],
    by simp [NotNamed, lawsFields, Obj.pairs, Pair.field], by decide⟩

/-- `t+t+t` and `t+(t+t)` agree at the place (arrays), and both are accepted. -/
example : Agree
      (Gives noFiles startRt [(c!"m: 1", c!"k")] c!"a: 1.5 b: 2 s: \"x\" t: [1]" (.mk 1 lawsFields none) c!"y" c!"t+t+t")
      (GivesVia noFiles startRt [(c!"m: 1", c!"k")] c!"a: 1.5 b: 2 s: \"x\" t: [1]" (.mk 1 lawsFields none) c!"z" c!"t+t"
        c!"y" c!"t+z") ∧
    ∃ v, Gives noFiles startRt [(c!"m: 1", c!"k")] c!"a: 1.5 b: 2 s: \"x\" t: [1]" (.mk 1 lawsFields none) c!"y" c!"t+t+t" v := by
  refine ⟨c85_sums_regroup _ _ _ _ _ lawsPlace c!"t" c!"t" c!"t" c!"y" c!"z" _ _ _ lawsT lawsT lawsT lawsNew, ?_⟩
  have ht := lawsT
  refine (gives_means lawsPlace lawsNew.yName lawsNew.yNew (sp2 ht.name ht.name ht.name .plus .plus)
    (means2 ht.name ht.name ht.name ht.value ht.value ht.value .plus .plus
      (sums_tree _ _ (.inl rfl) (.inl rfl) _ _ _))).2 ?_
  have hl : Ty.mostSpecific .int .int = some (.int, false) := by rw [c03_most_specific_idem]; rfl
  exact ⟨_, _, .concatArr (id := 0) (lcr_pair.2 ⟨_, hl⟩), .concatArr (id := 0) (lcr_pair.2 ⟨_, hl⟩)⟩

/-- `a*b*b` and `b*a*b` at the place: a Frac and an Int, in two orders. -/
example : ∃ v, Gives noFiles startRt [(c!"m: 1", c!"k")] c!"a: 1.5 b: 2 s: \"x\" t: [1]" (.mk 1 lawsFields none) c!"y"
      (joined .mult c!"a" [c!"b", c!"b"]) v ∧
    Gives noFiles startRt [(c!"m: 1", c!"k")] c!"a: 1.5 b: 2 s: \"x\" t: [1]" (.mk 1 lawsFields none) c!"y"
      (joined .mult c!"b" [c!"a", c!"b"]) v := by
  obtain ⟨v, h1, h2, -⟩ := c85_any_order _ _ _ _ _ lawsPlace .mult (.inr rfl) c!"a" c!"b" c!"y" [c!"b", c!"b"]
    [c!"a", c!"b"] (by
      intro n hn
      simp at hn
      rcases hn with rfl | rfl
      · exact ⟨_, _, lawsA, .frac _⟩
      · exact ⟨_, _, lawsB, .int _⟩) (List.Perm.swap _ _ _) lawsNew.yName lawsNew.yNew
  exact ⟨v, h1, h2⟩

example : joined .mult c!"a" [c!"b", c!"b"] = c!"a*b*b" := rfl

end

end Over
