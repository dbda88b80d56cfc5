import Verif.Lemmas.Formulas
import Verif.Props.Laws

/-!
# C86: the type of a formula follows from the types of its operands

At any place (`ReadsAt`), let `x∘b∘c…` be a chain of fields with any values, read with the usual precedence (`SumTree`).
`HasType` computes types from types.  A chain has at most one type; if it has a type it gives a value of this type, unless a
division by zero occurs, which is reported as such; if it has none it is rejected and the error names the types of two
operands that do not fit.
-/

namespace Over

section
variable [Unicode]

/-- The operands `x` and `r` of a chain are fields with the values `v` and `ws`; `y` is a new name. -/
structure ChainAt (p : Obj) (x : Str) (r : List (BinOp × Str)) (v : Value) (ws : List (BinOp × Value)) (y : Str) : Prop where
  first : FieldAt p x v
  names : ∀ q ∈ r, FieldName q.2
  values : ChainValues p.pairs r ws
  name : FieldName y
  new : NotNamed p.pairs y

theorem ChainAt.spelled {p : Obj} {x : Str} {r : List (BinOp × Str)} {v : Value} {ws : List (BinOp × Value)} {y : Str}
    (h : ChainAt p x r v ws y) :
    SpExpr (.mk (.name x) (r.map (fun p => .mk p.1 (.name p.2)))) (chainText x r) :=
  SpExpr.mk (.name h.first.name.varName) (spChain h.names)

theorem ChainAt.means {fs : FS} {d : Nat} {p : Obj} {x : Str} {r : List (BinOp × Str)} {v : Value}
    {ws : List (BinOp × Value)} {y : Str} (h : ChainAt p x r v ws y) {t : OpTree} (ht : SumTree v ws t) :
    FormulaMeans fs d p.pairs (.mk (.name x) (r.map (fun p => .mk p.1 (.name p.2)))) (TreeValue t) :=
  means_chain h.first.name h.first.value h.names h.values ht

theorem ChainAt.eval {fs : FS} {d : Nat} {p : Obj} {x : Str} {r : List (BinOp × Str)} {v : Value}
    {ws : List (BinOp × Value)} {y : Str} (h : ChainAt p x r v ws y) (st : ESt) :
    evalExpr fs none [] (theLoader fs) (.mk (.name x) (r.map (fun p => .mk p.1 (.name p.2)))) p.pairs d st =
      chainVals none v ws st := by
  obtain ⟨hx, hr, hw, -, -⟩ := h
  refine evalExpr_known (evalTerm_field hx.name hx.value) ?_ st
  rw [List.forall₂_map_left_iff]
  unfold ChainValues at hw
  induction hw with
  | nil => exact .nil
  | @cons p q r ws h1 h2 ih =>
    exact .cons ⟨_, by rw [← h1.1], fun st => evalTerm_field (hr p (by simp)) h1.2 st⟩
      (ih (fun p hp => hr p (by simp [hp])))

/-- A chain without a value is rejected, for one of the two reasons. -/
theorem chain_rejected {fs : FS} {rt : Rt} {A : List (Str × Str)} {u : Str} {p : Obj} (h : ReadsAt fs rt A u p)
    {x y : Str} {r : List (BinOp × Str)} {v : Value} {ws : List (BinOp × Value)} (hc : ChainAt p x r v ws y) {t : OpTree}
    (ht : SumTree v ws t) (hno : ¬ ∃ w, TreeValue t w) {k : Kind → Prop}
    (hk1 : ∀ op t1 t2 l c, Meets t op (.mismatch t1 t2) → k (.binaryOperatorError t1 t2 op l c))
    (hk2 : ∀ l c, DividesByZero t → k (.invalidNumeric l c)) : GivesError fs rt A u y (chainText x r) k := by
  obtain ⟨st, -, hst⟩ := at_place h
  obtain ⟨h1, h2, -⟩ := field_at hst hc.name hc.new hc.spelled
  rw [hc.eval] at h1 h2
  cases he : chainVals none v ws st with
  | ok q => exact absurd ⟨_, tree_of_chain ht he⟩ hno
  | error e =>
    rw [he] at h1 h2
    have key : ∃ kk, e = .sem none kk ∧ ∀ kd, kk.Reported kd → k kd := by
      rcases chain_fails ht he with ⟨op, t1, t2, hm, rfl⟩ | ⟨hz, rfl⟩
      · exact ⟨_, rfl, fun kd hkd => by cases hkd; exact hk1 _ _ _ _ _ hm⟩
      · exact ⟨_, rfl, fun kd hkd => by cases hkd; exact hk2 _ _ hz⟩
    obtain ⟨kk, rfl, hkk⟩ := key
    constructor
    · obtain ⟨kd, hkd, h3⟩ := (h1 _ rfl).fails
      exact ⟨kd, hkk kd hkd, h3⟩
    · intro rest hrest
      obtain ⟨kd, hkd, h3⟩ := (h2 _ rest hrest rfl).fails
      exact ⟨kd, hkk kd hkd, h3⟩

omit [Unicode] in
/-- C86: a formula has at most one type. -/
theorem c86_one_type (t : OpTree) (a b : Ty) (h : HasType t a) (h' : HasType t b) : a = b := hasType_unique h h'

/-- C86: what an accepted chain gives has the type that follows from the types of the operands. -/
theorem c86_sound (fs : FS) (rt : Rt) (A : List (Str × Str)) (u : Str) (p : Obj) (h : ReadsAt fs rt A u p)
    (x y : Str) (r : List (BinOp × Str)) (v : Value) (ws : List (BinOp × Value)) (hc : ChainAt p x r v ws y)
    (t : OpTree) (ht : SumTree v ws t) (w : Value) (hg : Gives fs rt A u p y (chainText x r) w) :
    HasType t w.getType :=
  hasType_of_value ((gives_means h hc.name hc.new hc.spelled (hc.means ht)).1 w hg)

/-- C86: a chain that has a type, and in which nothing is divided by zero, is accepted and gives a value of this type. -/
theorem c86_complete (fs : FS) (rt : Rt) (A : List (Str × Str)) (u : Str) (p : Obj) (h : ReadsAt fs rt A u p)
    (x y : Str) (r : List (BinOp × Str)) (v : Value) (ws : List (BinOp × Value)) (hc : ChainAt p x r v ws y)
    (t : OpTree) (ht : SumTree v ws t) (a : Ty) (hty : HasType t a) (hz : ¬ DividesByZero t) :
    ∃ w, Gives fs rt A u p y (chainText x r) w ∧ w.getType = a := by
  rcases value_of_hasType hty with ⟨w, hw, -⟩ | hd
  · obtain ⟨q, hq⟩ := (gives_means h hc.name hc.new hc.spelled (hc.means ht)).2 ⟨w, hw⟩
    exact ⟨q, hq, hasType_unique (c86_sound fs rt A u p h x y r v ws hc t ht q hq) hty⟩
  · exact absurd hd hz

/-- C86: a chain that has a type fails only by a division by zero, and then it does fail, as `InvalidNumeric`. -/
theorem c86_zero (fs : FS) (rt : Rt) (A : List (Str × Str)) (u : Str) (p : Obj) (h : ReadsAt fs rt A u p)
    (x y : Str) (r : List (BinOp × Str)) (v : Value) (ws : List (BinOp × Value)) (hc : ChainAt p x r v ws y)
    (t : OpTree) (ht : SumTree v ws t) (a : Ty) (hty : HasType t a) (hz : DividesByZero t) :
    GivesError fs rt A u y (chainText x r) (fun k => ∃ l c, k = .invalidNumeric l c) :=
  chain_rejected h hc ht (no_value_of_zero hz) (fun _ _ _ _ _ hm => absurd ⟨a, hty⟩ (meets_mismatch hm))
    (fun l c _ => ⟨l, c, rfl⟩)

/-- C86: a chain that has no type is rejected.  The error names an operator of the chain and the types of operands of it
that do not fit, unless a division by zero comes first. -/
theorem c86_ill_typed (fs : FS) (rt : Rt) (A : List (Str × Str)) (u : Str) (p : Obj) (h : ReadsAt fs rt A u p)
    (x y : Str) (r : List (BinOp × Str)) (v : Value) (ws : List (BinOp × Value)) (hc : ChainAt p x r v ws y)
    (t : OpTree) (ht : SumTree v ws t) (hty : ¬ ∃ a, HasType t a) :
    GivesError fs rt A u y (chainText x r) (fun k =>
      (∃ t1 t2 op l c, k = .binaryOperatorError t1 t2 op l c ∧ Meets t op (.mismatch t1 t2)) ∨
      ((∃ l c, k = .invalidNumeric l c) ∧ DividesByZero t)) :=
  chain_rejected h hc ht (fun ⟨_, hw⟩ => hty ⟨_, hasType_of_value hw⟩)
    (fun op t1 t2 l c hm => .inl ⟨t1, t2, op, l, c, rfl, hm⟩) (fun l c hz => .inr ⟨⟨l, c, rfl⟩, hz⟩)

/-- C86: the values do not matter.  Two chains with the same operators whose operands have the same types, in any two places
of any two documents: if one gives a value, the other gives a value of the same type or fails as a division by zero. -/
theorem c86_types_only (fs fs' : FS) (rt rt' : Rt) (A A' : List (Str × Str)) (u u' : Str) (p p' : Obj)
    (h : ReadsAt fs rt A u p) (h' : ReadsAt fs' rt' A' u' p') (x x' y y' : Str) (r r' : List (BinOp × Str))
    (v v' : Value) (ws ws' : List (BinOp × Value)) (hc : ChainAt p x r v ws y) (hc' : ChainAt p' x' r' v' ws' y')
    (hv : v.getType = v'.getType)
    (hws : List.Forall₂ (fun a b => a.1 = b.1 ∧ a.2.getType = b.2.getType) ws ws') (w : Value)
    (hg : Gives fs rt A u p y (chainText x r) w) :
    (∃ w', Gives fs' rt' A' u' p' y' (chainText x' r') w' ∧ w'.getType = w.getType) ∨
    GivesError fs' rt' A' u' y' (chainText x' r') (fun k => ∃ l c, k = .invalidNumeric l c) := by
  obtain ⟨t, ht⟩ := sumTree_exists v ws
  obtain ⟨t', ht'⟩ := sumTree_exists v' ws'
  have hty := (sumTree_sameTypes hv hws ht ht').hasType w.getType |>.1 (c86_sound fs rt A u p h x y r v ws hc t ht w hg)
  by_cases hz : DividesByZero t'
  · exact .inr (c86_zero fs' rt' A' u' p' h' x' y' r' v' ws' hc' t' ht' _ hty hz)
  · exact .inl (c86_complete fs' rt' A' u' p' h' x' y' r' v' ws' hc' t' ht' _ hty hz)

end

/-! ## Examples -/

section
attribute [local instance] sampleUnicode

theorem lawsS : FieldAt (.mk 1 lawsFields none) c!"s" (.str c!"x") :=
  ⟨sampleFieldName 's' (by decide), [.mk c!"a" (.frac (mkRat 3 2)), .mk c!"b" (.int 2)], _, rfl,
    by simp [Pair.field]⟩

/-- `b+a*b`, with Ints and a Frac. -/
theorem chainNumbers : ChainAt (.mk 1 lawsFields none) c!"b" [(.plus, c!"a"), (.mult, c!"b")] (.int 2)
    [(.plus, .frac (mkRat 3 2)), (.mult, .int 2)] c!"y" :=
  ⟨lawsB, by intro q hq; simp at hq; rcases hq with rfl | rfl; exacts [lawsA.name, lawsB.name],
    .cons ⟨rfl, lawsA.value⟩ (.cons ⟨rfl, lawsB.value⟩ .nil), lawsNew.yName, lawsNew.yNew⟩

/-- `b+s*b` does not fit. -/
theorem chainMixed : ChainAt (.mk 1 lawsFields none) c!"b" [(.plus, c!"s"), (.mult, c!"b")] (.int 2)
    [(.plus, .str c!"x"), (.mult, .int 2)] c!"y" :=
  ⟨lawsB, by intro q hq; simp at hq; rcases hq with rfl | rfl; exacts [lawsS.name, lawsB.name],
    .cons ⟨rfl, lawsS.value⟩ (.cons ⟨rfl, lawsB.value⟩ .nil), lawsNew.yName, lawsNew.yNew⟩

theorem plusTimes (a b c : Value) : SumTree a [(.plus, b), (.mult, c)]
    (.node .plus (.leaf a) (.node .mult (.leaf b) (.leaf c))) :=
  .plus (r := []) (q := [(.mult, c)]) (.product (.one a)) (.inl rfl) (.times (r := []) (.one b) (.inl rfl))

/-- `b+a*b` gives a Frac. -/
example : ∃ w, Gives noFiles startRt [(c!"m: 1", c!"k")] c!"a: 1.5 b: 2 s: \"x\" t: [1]" (.mk 1 lawsFields none) c!"y"
    c!"b+a*b" w ∧ w.getType = .frac := by
  refine c86_complete _ _ _ _ _ lawsPlace c!"b" c!"y" [(.plus, c!"a"), (.mult, c!"b")] _ _ chainNumbers _
    (plusTimes _ _ _) .frac ?_ ?_
  · exact .node (.leaf _) (.node (.leaf _) (.leaf _) (.numbers (by decide) (by decide) (.inr rfl) (.inl rfl) (.inl rfl)))
      (.numbers (by decide) (by decide) (.inl rfl) (.inr rfl) (.inr rfl))
  · rintro ⟨op, x, y, a, b, hw, hx, hy, hz⟩
    cases hw with
    | whole => cases hz
    | left hw => cases hw
    | right hw =>
      cases hw with
      | whole => cases hz
      | left hw => cases hw
      | right hw => cases hw

/-- `b+s*b` is rejected. -/
example : ∃ k, fromStr noFiles (nest [(c!"m: 1", c!"k")] c!"a: 1.5 b: 2 s: \"x\" t: [1]\ny:b+s*b") startRt =
    .err ⟨none, k⟩ := by
  have hno : ¬ ∃ a, HasType (.node .plus (.leaf (.int 2)) (.node .mult (.leaf (.str c!"x")) (.leaf (.int 2)))) a := by
    rintro ⟨a, h⟩
    cases h with
    | node h1 h2 h3 =>
      cases h2 with
      | node h4 h5 h6 =>
        cases h4
        cases h6 with
        | numbers _ _ h => rcases h with h | h <;> cases h
  obtain ⟨⟨k, -, hk⟩, -⟩ := c86_ill_typed _ _ _ _ _ lawsPlace c!"b" c!"y" [(.plus, c!"s"), (.mult, c!"b")] _ _ chainMixed _
    (plusTimes _ _ _) hno
  exact ⟨k, hk⟩

/-- A document with a 0. -/
theorem zeroPlace : ReadsAt noFiles startRt [] c!"z: 0 b: 2" (.mk 0 [.mk c!"z" (.int 0), .mk c!"b" (.int 2)] none) := by
  obtain ⟨s, h⟩ : ∃ s, fromStr noFiles c!"z: 0 b: 2" startRt =
      .ok (.mk 0 [.mk c!"z" (.int 0), .mk c!"b" (.int 2)] none) s := Res.gives_ok (by decide +kernel)
  exact ⟨(by intro l hl; cases hl), wellFormed_of_read h, _, s, h, .here⟩

/-- `b%z` there. -/
theorem chainZero : ChainAt (.mk 0 [.mk c!"z" (.int 0), .mk c!"b" (.int 2)] none) c!"b" [(.mod, c!"z")] (.int 2)
    [(.mod, .int 0)] c!"y" := by
  have hb : FieldName c!"b" := sampleFieldName 'b' (by decide)
  have hz : FieldName c!"z" := sampleFieldName 'z' (by decide)
  refine ⟨⟨hb, [.mk c!"z" (.int 0)], [], rfl, by simp [Pair.field]⟩, ?_, .cons ⟨rfl, [], _, rfl, by simp⟩ .nil,
    sampleFieldName 'y' (by decide), by simp [NotNamed, Obj.pairs, Pair.field]⟩
  intro q hq
  simp at hq
  subst hq
  exact hz

/-- `b%z` has the type Int and is rejected as a division by zero. -/
example : HasType (.node .mod (.leaf (.int 2)) (.leaf (.int 0))) .int ∧
    GivesError noFiles startRt [] c!"z: 0 b: 2" c!"y" c!"b%z" (fun k => ∃ l c, k = .invalidNumeric l c) := by
  have hty : HasType (.node .mod (.leaf (.int 2)) (.leaf (.int 0))) .int := .node (.leaf _) (.leaf _) (.ints (by decide))
  exact ⟨hty, c86_zero _ _ _ _ _ zeroPlace c!"b" c!"y" [(.mod, c!"z")] _ _ chainZero _ (sumTree_one _ _ _) .int hty
    ⟨.mod, _, _, _, _, .whole _, .leaf _, .leaf _, .modZero _⟩⟩

/-- `b%b` inside `k` and `b%z` in the other document have operands of the same types. -/
theorem chainOnes : ChainAt (.mk 1 lawsFields none) c!"b" [(.mod, c!"b")] (.int 2) [(.mod, .int 2)] c!"y" :=
  ⟨lawsB, by intro q hq; simp at hq; subst hq; exact lawsB.name, .cons ⟨rfl, lawsB.value⟩ .nil, lawsNew.yName,
    lawsNew.yNew⟩

example (w : Value) (hg : Gives noFiles startRt [(c!"m: 1", c!"k")] c!"a: 1.5 b: 2 s: \"x\" t: [1]"
      (.mk 1 lawsFields none) c!"y" c!"b%b" w) :
    (∃ w', Gives noFiles startRt [] c!"z: 0 b: 2" (.mk 0 [.mk c!"z" (.int 0), .mk c!"b" (.int 2)] none) c!"y" c!"b%z" w' ∧
      w'.getType = w.getType) ∨
    GivesError noFiles startRt [] c!"z: 0 b: 2" c!"y" c!"b%z" (fun k => ∃ l c, k = .invalidNumeric l c) :=
  c86_types_only _ _ _ _ _ _ _ _ _ _ lawsPlace zeroPlace c!"b" c!"b" c!"y" c!"y" [(.mod, c!"b")] [(.mod, c!"z")] _ _ _ _
    chainOnes chainZero rfl (.cons ⟨rfl, rfl⟩ .nil) w hg

end

end Over
