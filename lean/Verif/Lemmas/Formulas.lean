import Verif.Lemmas.Laws
import Verif.Spec.Formulas

/-! # Formulas: where they fail, and their types -/

namespace Over

/-! ## Where a chain fails -/

theorem within_reading {s : OpTree} : ∀ (r : List (BinOp × Value)) (acc : Option (OpTree × BinOp)) (cur : OpTree),
    (Within s cur ∨ ∃ l op, acc = some (l, op) ∧ Within s l) → Within s (Reading.tree (r.foldl Reading.step (acc, cur)))
  | [], acc, cur, h => by
    rcases h with h | ⟨l, op, rfl, h⟩
    · cases acc with
      | none => exact h
      | some x => exact .right h
    · exact .left h
  | (op, w) :: r, acc, cur, h => by
    rw [List.foldl_cons]
    by_cases hp : op.tight = true
    · have : Reading.step (acc, cur) (op, w) = (acc, .node op cur (.leaf w)) := by
        simp only [Reading.step, hp, if_true]
      rw [this]
      refine within_reading r _ _ ?_
      rcases h with h | h
      · exact .inl (.left h)
      · exact .inr h
    · match acc, h with
      | none, h =>
        have : Reading.step (none, cur) (op, w) = (some (cur, op), .leaf w) := by
          simp only [Reading.step, hp, if_false, Bool.false_eq_true]
        rw [this]
        refine within_reading r _ _ (.inr ⟨cur, op, rfl, ?_⟩)
        rcases h with h | ⟨_, _, h, _⟩
        · exact h
        · cases h
      | some (l, op0), h =>
        have : Reading.step (some (l, op0), cur) (op, w) = (some (.node op0 l cur, op), .leaf w) := by
          simp only [Reading.step, hp, if_false, Bool.false_eq_true]
        rw [this]
        refine within_reading r _ _ (.inr ⟨_, op, rfl, ?_⟩)
        rcases h with h | ⟨_, _, h, h'⟩
        · exact .right h
        · cases h; exact .left h'

/-- The operation at which the evaluation of a formula stops. -/
def StuckAt (file : Option Str) (t : OpTree) (e : SemErr) : Prop :=
  ∃ op x y a b st, Within (.node op x y) t ∧ TreeValue x a ∧ TreeValue y b ∧ applyBin file op a b st = .error e

theorem group_stuck {file : Option Str} : ∀ (r : List (BinOp × Value)) (v : Value)
    (acc : Option (OpTree × BinOp)) (cur : OpTree) (st : ESt) (e : SemErr),
    groupVals file r v st = .error e → TreeValue cur v →
    StuckAt file (Reading.tree (r.foldl Reading.step (acc, cur))) e
  | [], v, acc, cur, st, e, hg, hc => by cases hg
  | (op, w) :: r, v, acc, cur, st, e, hg, hc => by
    simp only [groupVals] at hg
    rw [List.foldl_cons]
    by_cases hp : op.tight = true
    · rw [if_pos hp] at hg
      have : Reading.step (acc, cur) (op, w) = (acc, .node op cur (.leaf w)) := by
        simp only [Reading.step, hp, if_true]
      rw [this]
      cases hb : applyBin file op v w st with
      | error e' =>
        rw [EM.bind_err hb] at hg
        cases hg
        exact ⟨op, cur, .leaf w, v, w, st, within_reading r _ _ (.inl (.whole _)), hc, .leaf w, hb⟩
      | ok z =>
        obtain ⟨a, st'⟩ := z
        rw [EM.bind_ok hb] at hg
        exact group_stuck r _ _ _ _ _ hg (.node hc (.leaf w) (applyBin_ok hb))
    · rw [if_neg hp] at hg
      obtain ⟨acc', h⟩ : ∃ acc', Reading.step (acc, cur) (op, w) = (acc', .leaf w) := by
        simp only [Reading.step, hp, if_false, Bool.false_eq_true]
        exact ⟨_, rfl⟩
      rw [h]
      cases hb : groupVals file r w st with
      | error e' =>
        rw [EM.bind_err hb] at hg
        cases hg
        exact group_stuck r _ _ _ _ _ hb (.leaf w)
      | ok z => obtain ⟨⟨p1, sums1⟩, st'⟩ := z; rw [EM.bind_ok hb] at hg; cases hg

theorem finish_stuck {file : Option Str} : ∀ (r : List (BinOp × Value)) (v p : Value) (sums : List (BinOp × Value))
    (acc : Option (OpTree × BinOp)) (x : Option (Value × BinOp)) (cur : OpTree) (st st1 st2 : ESt) (e : SemErr),
    groupVals file r v st = .ok ((p, sums), st1) → finish file x p sums st2 = .error e →
    TreeValue cur v → PendingValue acc x → StuckAt file (Reading.tree (r.foldl Reading.step (acc, cur))) e
  | [], v, p, sums, acc, x, cur, st, st1, st2, e, hg, hf, hc, ha => by
    cases hg
    match acc, x, ha with
    | none, none, _ => cases hf
    | some (l, op), some (y, _), ⟨h, rfl⟩ =>
      simp only [finish, sumLeft] at hf
      cases hb : applyBin file op y v st2 with
      | error e' =>
        rw [EM.bind_err hb] at hf
        cases hf
        exact ⟨op, l, cur, y, v, st2, .whole _, h, hc, hb⟩
      | ok z =>
        obtain ⟨a, st'⟩ := z
        rw [EM.bind_ok hb] at hf
        cases hf
  | (op, w) :: r, v, p, sums, acc, x, cur, st, st1, st2, e, hg, hf, hc, ha => by
    simp only [groupVals] at hg
    rw [List.foldl_cons]
    by_cases hp : op.tight = true
    · rw [if_pos hp] at hg
      cases hb : applyBin file op v w st with
      | error e => rw [EM.bind_err hb] at hg; cases hg
      | ok z =>
        obtain ⟨a, st'⟩ := z
        rw [EM.bind_ok hb] at hg
        have : Reading.step (acc, cur) (op, w) = (acc, .node op cur (.leaf w)) := by
          simp only [Reading.step, hp, if_true]
        rw [this]
        exact finish_stuck r _ _ _ _ x _ _ _ _ _ hg hf (.node hc (.leaf w) (applyBin_ok hb)) ha
    · rw [if_neg hp] at hg
      cases hb : groupVals file r w st with
      | error e => rw [EM.bind_err hb] at hg; cases hg
      | ok z =>
        obtain ⟨⟨p1, sums1⟩, st'⟩ := z
        rw [EM.bind_ok hb] at hg
        cases hg
        match acc, x, ha with
        | none, none, _ =>
          have : Reading.step (none, cur) (op, w) = (some (cur, op), .leaf w) := by
            simp only [Reading.step, hp, if_false, Bool.false_eq_true]
          rw [this]
          exact finish_stuck r _ _ _ _ (some (v, op)) _ _ _ _ _ hb hf (.leaf w) ⟨hc, rfl⟩
        | some (l, op0), some (y, _), ⟨h, rfl⟩ =>
          have : Reading.step (some (l, op0), cur) (op, w) = (some (.node op0 l cur, op), .leaf w) := by
            simp only [Reading.step, hp, if_false, Bool.false_eq_true]
          rw [this]
          simp only [finish] at hf
          rw [sumLeft] at hf
          cases hb2 : applyBin file op0 y v st2 with
          | error e' =>
            rw [EM.bind_err hb2] at hf
            cases hf
            exact ⟨op0, l, cur, y, v, st2, within_reading r _ _ (.inr ⟨_, _, rfl, .whole _⟩), h, hc, hb2⟩
          | ok z =>
            obtain ⟨a, st'⟩ := z
            rw [EM.bind_ok hb2] at hf
            exact finish_stuck r _ _ _ _ (some (a, op)) _ _ _ _ _ hb hf (.leaf w)
              ⟨.node h hc (applyBin_ok hb2), rfl⟩

theorem chain_stuck {file : Option Str} {v : Value} {r : List (BinOp × Value)} {t : OpTree} {st : ESt} {e : SemErr}
    (ht : SumTree v r t) (h : chainVals file v r st = .error e) : StuckAt file t e := by
  unfold chainVals at h
  rw [← sum_reading ht]
  cases hg : groupVals file r v st with
  | error e' =>
    rw [EM.bind_err hg] at h
    cases h
    exact group_stuck r v none (.leaf v) _ _ hg (.leaf v)
  | ok z =>
    obtain ⟨⟨p, sums⟩, st1⟩ := z
    rw [EM.bind_ok hg] at h
    exact finish_stuck r v p sums none none (.leaf v) _ _ _ _ hg h (.leaf v) trivial

theorem applyBin_why {file : Option Str} {op : BinOp} {a b : Value} {st : ESt} {e : SemErr}
    (h : applyBin file op a b st = .error e) :
    (∃ t1 t2, OpTable op a b (.mismatch t1 t2) ∧ e = .sem file (.binary op t1 t2)) ∨
    (OpTable op a b .zero ∧ e = .sem file .divisionByZero) := by
  unfold applyBin at h
  simp only [table_iff]
  generalize binSem op a b = r at h
  cases r with
  | val x => cases h
  | newArr t vs => cases h
  | bad t1 t2 => cases h; exact .inl ⟨t1, t2, ⟨rfl, rfl⟩, rfl⟩
  | divisionByZero => cases h; exact .inr ⟨trivial, rfl⟩

/-- Why a chain fails. -/
theorem chain_fails {file : Option Str} {v : Value} {r : List (BinOp × Value)} {t : OpTree} {st : ESt} {e : SemErr}
    (ht : SumTree v r t) (h : chainVals file v r st = .error e) :
    (∃ op t1 t2, Meets t op (.mismatch t1 t2) ∧ e = .sem file (.binary op t1 t2)) ∨
    (DividesByZero t ∧ e = .sem file .divisionByZero) := by
  obtain ⟨op, x, y, a, b, st', h1, h2, h3, h4⟩ := chain_stuck ht h
  rcases applyBin_why h4 with ⟨t1, t2, h5, rfl⟩ | ⟨h5, rfl⟩
  · exact .inl ⟨op, t1, t2, ⟨x, y, a, b, h1, h2, h3, h5⟩, rfl⟩
  · exact .inr ⟨⟨op, x, y, a, b, h1, h2, h3, h5⟩, rfl⟩

/-! ## Types -/

theorem getType_number {a : Value} (h : NumberType a.getType) : ∃ x f, Num a x f ∧ a.getType = if f then .frac else .int := by
  cases a with
  | int i => exact ⟨_, _, .int i, rfl⟩
  | frac q => exact ⟨_, _, .frac q, rfl⟩
  | _ => rcases h with h | h <;> cases h

theorem Num.type {a : Value} {x : Rat} {f : Bool} (h : Num a x f) : a.getType = if f then .frac else .int := by
  cases h <;> rfl

theorem Num.numberType {a : Value} {x : Rat} {f : Bool} (h : Num a x f) : NumberType a.getType := by
  cases h
  · exact .inl rfl
  · exact .inr rfl

theorem opType_num {op : BinOp} {a b : Value} {x y : Rat} {f g : Bool} (ha : Num a x f) (hb : Num b y g)
    (hd : op ≠ .div) (hm : op ≠ .mod) : OpType op a.getType b.getType (if f || g then .frac else .int) := by
  cases f <;> cases g
  · cases ha; cases hb; exact .ints hd
  · exact .numbers hm hd ha.numberType hb.numberType (.inr (by rw [hb.type]; rfl))
  · exact .numbers hm hd ha.numberType hb.numberType (.inl (by rw [ha.type]; rfl))
  · exact .numbers hm hd ha.numberType hb.numberType (.inl (by rw [ha.type]; rfl))

/-- The value of an operation has the type of the rules. -/
theorem table_type {op : BinOp} {a b v : Value} (h : OpTable op a b (.value v)) :
    OpType op a.getType b.getType v.getType := by
  cases op with
  | plus =>
    cases add_inv h with
    | num ha hb hv => rw [hv.type]; exact opType_num ha hb (by decide) (by decide)
    | str => exact .strs
    | arr hm => exact .arrs (lcr_pair.2 ⟨_, hm⟩)
  | minus =>
    obtain ⟨x, y, f, g, ha, hb, hv⟩ := sub_inv h
    rw [hv.type]; exact opType_num ha hb (by decide) (by decide)
  | mult =>
    obtain ⟨x, y, f, g, ha, hb, hv⟩ := mul_inv h
    rw [hv.type]; exact opType_num ha hb (by decide) (by decide)
  | div =>
    obtain ⟨x, y, f, g, ha, hb, -, hv⟩ := div_inv h
    rw [hv.type]
    exact .quotient ha.numberType hb.numberType
  | mod =>
    cases h with
    | mod => exact .ints (by decide)

/-- An operation that the rules allow has a value, or it divides by zero. -/
theorem type_table {op : BinOp} {a b : Value} {u : Ty} (h : OpType op a.getType b.getType u) :
    (∃ v, OpTable op a b (.value v)) ∨ OpTable op a b .zero := by
  generalize hs : a.getType = s at h
  generalize ht : b.getType = t at h
  have num : ∀ {a : Value} {s : Ty}, a.getType = s → NumberType s → ∃ x f, Num a x f := by
    intro a s e hn
    obtain ⟨x, f, h, -⟩ := getType_number (a := a) (by rw [e]; exact hn)
    exact ⟨x, f, h⟩
  have quot : ∀ {s t : Ty}, a.getType = s → b.getType = t → NumberType s → NumberType t →
      (∃ v, OpTable .div a b (.value v)) ∨ OpTable .div a b .zero := by
    intro s t hs ht h1 h2
    obtain ⟨x, f, ha⟩ := num hs h1
    obtain ⟨y, g, hb⟩ := num ht h2
    by_cases h0 : y = 0
    · subst h0; exact .inr (.divZero ha.isNumber hb.isNumber)
    · exact .inl ⟨_, .div ha.isNumber hb.isNumber h0⟩
  have arith : ∀ {s t : Ty}, a.getType = s → b.getType = t → NumberType s → NumberType t → op ≠ .mod → op ≠ .div →
      ∃ v, OpTable op a b (.value v) := by
    intro s t hs ht h1 h2 h3 h4
    obtain ⟨x, f, ha⟩ := num hs h1
    obtain ⟨y, g, hb⟩ := num ht h2
    cases op with
    | plus => obtain ⟨v, hv, -⟩ := add_num ha hb; exact ⟨v, hv⟩
    | minus => obtain ⟨v, hv, -⟩ := sub_num ha hb; exact ⟨v, hv⟩
    | mult => obtain ⟨v, hv, -⟩ := mul_num ha hb; exact ⟨v, hv⟩
    | div => exact absurd rfl h4
    | mod => exact absurd rfl h3
  cases h with
  | ints hd =>
    by_cases hm : op = .mod
    · subst hm
      obtain ⟨x, f, ha, e1⟩ := getType_number (a := a) (by rw [hs]; exact .inl rfl)
      obtain ⟨y, g, hb, e2⟩ := getType_number (a := b) (by rw [ht]; exact .inl rfl)
      cases ha with
      | int i =>
        cases hb with
        | int j =>
          by_cases h0 : j = 0
          · subst h0; exact .inr (.modZero i)
          · exact .inl ⟨_, tmod_table i j h0⟩
        | frac => cases ht
      | frac => cases hs
    · exact .inl (arith hs ht (.inl rfl) (.inl rfl) hm hd)
  | numbers hm hd h1 h2 _ => exact .inl (arith hs ht h1 h2 hm hd)
  | quotient h1 h2 => exact quot hs ht h1 h2
  | strs =>
    cases a <;> cases hs
    cases b <;> cases ht
    exact .inl ⟨_, .concatStr _ _⟩
  | arrs hl =>
    cases a <;> cases hs
    cases b <;> cases ht
    exact .inl ⟨_, .concatArr (id := 0) hl⟩

theorem LeastCommonRefinement.unique' {u u' : Ty} {l : List Ty} (h : LeastCommonRefinement u l)
    (h' : LeastCommonRefinement u' l) : u = u' :=
  Refines.antisymm (h'.2 u h.1) (h.2 u' h'.1)

theorem opType_unique {op : BinOp} {s t u u' : Ty} (h : OpType op s t u) (h' : OpType op s t u') : u = u' := by
  cases h with
  | ints hd =>
    cases h' with
    | ints => rfl
    | numbers _ _ _ _ h => rcases h with h | h <;> cases h
    | quotient => exact absurd rfl hd
  | numbers hm hd h1 h2 h3 =>
    cases h' with
    | ints => rcases h3 with h | h <;> cases h
    | numbers => rfl
    | quotient => exact absurd rfl hd
    | strs => rcases h1 with h | h <;> cases h
    | arrs => rcases h1 with h | h <;> cases h
  | quotient h1 h2 =>
    cases h' with
    | ints hd => exact absurd rfl hd
    | numbers hm hd => exact absurd rfl hd
    | quotient => rfl
  | strs =>
    cases h' with
    | numbers _ _ h => rcases h with h | h <;> cases h
    | strs => rfl
  | arrs hl =>
    cases h' with
    | numbers _ _ h => rcases h with h | h <;> cases h
    | arrs hl' => rw [hl.unique' hl']

theorem hasType_unique {t : OpTree} {u u' : Ty} (h : HasType t u) (h' : HasType t u') : u = u' := by
  induction h generalizing u' with
  | leaf => cases h'; rfl
  | node h1 h2 h3 ih1 ih2 =>
    cases h' with
    | node h1' h2' h3' =>
      rw [← ih1 h1', ← ih2 h2'] at h3'
      exact opType_unique h3 h3'

theorem hasType_of_value {t : OpTree} {v : Value} (h : TreeValue t v) : HasType t v.getType := by
  induction h with
  | leaf v => exact .leaf v
  | node h1 h2 h3 ih1 ih2 => exact .node ih1 ih2 (table_type h3)

/-- A typed formula has a value of this type, or it divides by zero. -/
theorem value_of_hasType {t : OpTree} {u : Ty} (h : HasType t u) :
    (∃ v, TreeValue t v ∧ v.getType = u) ∨ DividesByZero t := by
  induction h with
  | leaf v => exact .inl ⟨v, .leaf v, rfl⟩
  | @node op l r s t u h1 h2 h3 ih1 ih2 =>
    rcases ih1 with ⟨a, ha, rfl⟩ | ⟨op', x, y, a, b, hw, h⟩
    · rcases ih2 with ⟨b, hb, rfl⟩ | ⟨op', x, y, a, b, hw, h⟩
      · rcases type_table h3 with ⟨v, hv⟩ | hz
        · exact .inl ⟨v, .node ha hb hv, opType_unique (table_type hv) h3⟩
        · exact .inr ⟨op, l, r, a, b, .whole _, ha, hb, hz⟩
      · exact .inr ⟨op', x, y, a, b, .right hw, h⟩
    · exact .inr ⟨op', x, y, a, b, .left hw, h⟩

theorem hasType_within {s t : OpTree} (hw : Within s t) : ∀ {u : Ty}, HasType t u → ∃ u', HasType s u' := by
  induction hw with
  | whole => intro u h; exact ⟨u, h⟩
  | left _ ih => intro u h; cases h with | node h1 h2 h3 => exact ih h1
  | right _ ih => intro u h; cases h with | node h1 h2 h3 => exact ih h2

theorem table_exclusive {op : BinOp} {a b v : Value} {t1 t2 : Ty} (h : OpTable op a b (.mismatch t1 t2)) :
    ¬ OpTable op a b (.value v) ∧ ¬ OpTable op a b .zero :=
  ⟨fun h' => (c29_table_total op a b).2 _ _ h h', fun h' => (c29_table_total op a b).2 _ _ h h'⟩

/-- An operation whose operands do not fit is a part that has no type. -/
theorem meets_mismatch {t : OpTree} {op : BinOp} {t1 t2 : Ty} (h : Meets t op (.mismatch t1 t2)) : ¬ ∃ u, HasType t u := by
  rintro ⟨u, hu⟩
  obtain ⟨x, y, a, b, hw, hx, hy, hm⟩ := h
  obtain ⟨u', h1⟩ := hasType_within hw hu
  cases h1 with
  | node h1 h2 h3 =>
    rw [hasType_unique h1 (hasType_of_value hx), hasType_unique h2 (hasType_of_value hy)] at h3
    rcases type_table h3 with ⟨v, hv⟩ | hz
    · exact (table_exclusive hm).1 hv
    · exact (table_exclusive (v := .null) hm).2 hz

theorem no_value_of_zero {t : OpTree} (h : DividesByZero t) : ¬ ∃ v, TreeValue t v := by
  rintro ⟨v, hv⟩
  obtain ⟨op, x, y, a, b, hw, hx, hy, hz⟩ := h
  have part : ∀ {s t : OpTree}, Within s t → ∀ {v}, TreeValue t v → ∃ w, TreeValue s w := by
    intro s t hw
    induction hw with
    | whole => intro v h; exact ⟨v, h⟩
    | left _ ih => intro v h; obtain ⟨_, _, h1, _, _⟩ := h.node_inv; exact ih h1
    | right _ ih => intro v h; obtain ⟨_, _, _, h2, _⟩ := h.node_inv; exact ih h2
  obtain ⟨w, hw⟩ := part hw hv
  obtain ⟨a', b', h1, h2, h3⟩ := hw.node_inv
  obtain ⟨v', h4, -⟩ := table_data (treeValue_data h1 hx) (treeValue_data h2 hy) h3
  exact (c29_table_total op a b).2 _ _ h4 hz

/-! ## Types are all that matters -/

/-- Formulas of the same shape whose operands have the same types. -/
inductive SameTypes : OpTree → OpTree → Prop
  | leaf {v w : Value} : v.getType = w.getType → SameTypes (.leaf v) (.leaf w)
  | node {op : BinOp} {l r l' r' : OpTree} : SameTypes l l' → SameTypes r r' →
      SameTypes (.node op l r) (.node op l' r')

theorem SameTypes.hasType {t t' : OpTree} (h : SameTypes t t') (u : Ty) : HasType t u ↔ HasType t' u := by
  induction h generalizing u with
  | @leaf v w e =>
    constructor
    · intro h; cases h; rw [e]; exact .leaf w
    · intro h; cases h; rw [← e]; exact .leaf v
  | node _ _ ih1 ih2 =>
    constructor
    · intro h; cases h with | node h1 h2 h3 => exact .node ((ih1 _).1 h1) ((ih2 _).1 h2) h3
    · intro h; cases h with | node h1 h2 h3 => exact .node ((ih1 _).2 h1) ((ih2 _).2 h2) h3

/-- Pending parts of the same types. -/
def SamePending : Option (OpTree × BinOp) → Option (OpTree × BinOp) → Prop
  | none, none => True
  | some (l, op), some (l', op') => SameTypes l l' ∧ op = op'
  | _, _ => False

theorem reading_sameTypes {r r' : List (BinOp × Value)}
    (h : List.Forall₂ (fun p q => p.1 = q.1 ∧ p.2.getType = q.2.getType) r r') :
    ∀ (acc acc' : Option (OpTree × BinOp)) (cur cur' : OpTree), SamePending acc acc' → SameTypes cur cur' →
      SameTypes (Reading.tree (r.foldl Reading.step (acc, cur))) (Reading.tree (r'.foldl Reading.step (acc', cur'))) := by
  induction h with
  | nil =>
    intro acc acc' cur cur' ha hc
    match acc, acc', ha with
    | none, none, _ => exact hc
    | some (l, op), some (l', _), ⟨h, rfl⟩ => exact .node h hc
  | @cons p q r r' hpq _ ih =>
    intro acc acc' cur cur' ha hc
    obtain ⟨op, w⟩ := p
    obtain ⟨op', w'⟩ := q
    obtain ⟨rfl, e⟩ := hpq
    rw [List.foldl_cons, List.foldl_cons]
    by_cases hp : op.tight = true
    · have h1 : ∀ acc cur w, Reading.step (acc, cur) (op, w) = (acc, .node op cur (.leaf w)) := by
        intro acc cur w; simp only [Reading.step, hp, if_true]
      rw [h1, h1]
      exact ih _ _ _ _ ha (.node hc (.leaf e))
    · match acc, acc', ha with
      | none, none, _ =>
        have h1 : ∀ cur w, Reading.step (none, cur) (op, w) = (some (cur, op), .leaf w) := by
          intro cur w; simp only [Reading.step, hp, if_false, Bool.false_eq_true]
        rw [h1, h1]
        exact ih _ _ _ _ ⟨hc, rfl⟩ (.leaf e)
      | some (l, op0), some (l', _), ⟨h, rfl⟩ =>
        have h1 : ∀ l cur w, Reading.step (some (l, op0), cur) (op, w) = (some (.node op0 l cur, op), .leaf w) := by
          intro l cur w; simp only [Reading.step, hp, if_false, Bool.false_eq_true]
        rw [h1, h1]
        exact ih _ _ _ _ ⟨.node h hc, rfl⟩ (.leaf e)

theorem sumTree_sameTypes {v v' : Value} {r r' : List (BinOp × Value)} {t t' : OpTree} (hv : v.getType = v'.getType)
    (h : List.Forall₂ (fun p q => p.1 = q.1 ∧ p.2.getType = q.2.getType) r r') (ht : SumTree v r t)
    (ht' : SumTree v' r' t') : SameTypes t t' := by
  rw [← sum_reading ht, ← sum_reading ht']
  exact reading_sameTypes h none none _ _ trivial (.leaf hv)

end Over
