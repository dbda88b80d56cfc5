import Verif.Spec.Operators
import Verif.Lemmas.WriteEval

/-! # Operators and chains -/

namespace Over

/-! ## The table -/

theorem tmod_nonpos {x : Int} (y : Int) (h : x ≤ 0) : Int.tmod x y ≤ 0 := by
  have := Int.tmod_nonneg y (a := -x) (by omega)
  rw [Int.neg_tmod] at this
  omega

/-- What `binSem` says, as a result of the table. -/
def BinRes.Says : BinRes → OpResult → Prop
  | .val v, .value w => v = w
  | .newArr t vs, .value w => ∃ id, w = .arr id t vs
  | .bad t1 t2, .mismatch u1 u2 => t1 = u1 ∧ t2 = u2
  | .divisionByZero, .zero => True
  | _, _ => False

theorem countsAs_det {v w : Value} {t : Ty} : CountsAs v w t ↔
    t = (match v, w with | .int _, .frac _ => Ty.frac | v, _ => v.getType) := by
  constructor
  · intro h
    cases h with
    | promoted i q => rfl
    | own h =>
      split
      · rename_i i q; exact absurd ⟨rfl, rfl⟩ (h i q)
      · rfl
  · rintro rfl
    split
    · exact .promoted _ _
    · rename_i h
      refine .own ?_
      rintro i q ⟨rfl, rfl⟩
      exact h i q rfl rfl

theorem promoted_countsAs (a b : Value) : CountsAs a b (promotedTypes a b).1 ∧ CountsAs b a (promotedTypes a b).2 := by
  rw [countsAs_det, countsAs_det]
  cases a <;> cases b <;> exact ⟨rfl, rfl⟩

theorem tmod_spec {x y q r : Int} (h1 : x = y * q + r) (h2 : r.natAbs < y.natAbs) (h3 : 0 ≤ r * x) :
    r = Int.tmod x y := by
  have e := Int.mul_tdiv_add_tmod x y
  have h4 : (Int.tmod x y).natAbs < y.natAbs := by
    rw [Int.natAbs_tmod]
    exact Nat.mod_lt _ (by omega)
  have h5 : 0 ≤ Int.tmod x y * x := by
    rcases le_total 0 x with hx | hx
    · exact mul_nonneg (Int.tmod_nonneg _ hx) hx
    · exact mul_nonneg_of_nonpos_of_nonpos (tmod_nonpos _ hx) hx
  generalize Int.tmod x y = m at *
  generalize Int.tdiv x y = k at *
  -- y * (q - k) = m - r, |m - r| < |y| when the signs agree
  have h6 : y * (q - k) = m - r := by linarith [mul_sub y q k]
  have h7 : (m - r).natAbs < y.natAbs := by
    rcases lt_trichotomy 0 x with hx | hx | hx
    · have a1 : 0 ≤ r := nonneg_of_mul_nonneg_left h3 hx
      have a2 : 0 ≤ m := nonneg_of_mul_nonneg_left h5 hx
      omega
    · subst hx
      have : r = 0 := by
        by_contra hr
        have hd : y ∣ r := ⟨-q, by linarith⟩
        have := Int.natAbs_dvd_natAbs.2 hd
        have := Nat.le_of_dvd (by omega) this
        omega
      have : m = 0 := by
        by_contra hr
        have hd : y ∣ m := ⟨-k, by linarith⟩
        have := Int.natAbs_dvd_natAbs.2 hd
        have := Nat.le_of_dvd (by omega) this
        omega
      omega
    · have a1 : r ≤ 0 := by
        by_contra hr
        have := mul_neg_of_pos_of_neg (not_le.1 hr) hx
        omega
      have a2 : m ≤ 0 := by
        by_contra hr
        have := mul_neg_of_pos_of_neg (not_le.1 hr) hx
        omega
      omega
  by_contra hne
  have hd : y ∣ (m - r) := ⟨q - k, h6.symm⟩
  have h8 := Int.natAbs_dvd_natAbs.2 hd
  have := Nat.le_of_dvd (by omega) h8
  omega

theorem tmod_table (x y : Int) (h : y ≠ 0) : OpTable .mod (.int x) (.int y) (.value (.int (Int.tmod x y))) := by
  refine .mod (q := Int.tdiv x y) h (Int.mul_tdiv_add_tmod x y).symm ?_ ?_
  · rw [Int.natAbs_tmod]
    exact Nat.mod_lt _ (by omega)
  · rcases le_total 0 x with hx | hx
    · exact mul_nonneg (Int.tmod_nonneg _ hx) hx
    · exact mul_nonneg_of_nonpos_of_nonpos (tmod_nonpos _ hx) hx

theorem lcr_pair {s t u : Ty} : LeastCommonRefinement u [s, t] ↔
    ∃ f, Ty.mostSpecific s t = some (u, f) := by
  have hs := Ty.mostSpecific_spec s t
  constructor
  · intro h
    cases hm : Ty.mostSpecific s t with
    | none => rw [hm] at hs; exact absurd ⟨h.1 s (by simp), h.1 t (by simp)⟩ (hs u)
    | some x =>
      obtain ⟨c, f⟩ := x
      rw [hm] at hs
      refine ⟨f, ?_⟩
      have h1 : Refines c u := h.2 c (by
        intro w hw
        simp only [List.mem_cons, List.not_mem_nil, or_false] at hw
        rcases hw with rfl | rfl
        · exact hs.1
        · exact hs.2.1)
      have h2 : Refines u c := hs.2.2.1 u (h.1 s (by simp)) (h.1 t (by simp))
      rw [Refines.antisymm h1 h2]
  · rintro ⟨f, hm⟩
    rw [hm] at hs
    refine ⟨?_, fun d hd => hs.2.2.1 d (hd s (by simp)) (hd t (by simp))⟩
    intro w hw
    simp only [List.mem_cons, List.not_mem_nil, or_false] at hw
    rcases hw with rfl | rfl
    · exact hs.1
    · exact hs.2.1

theorem applicable_arr {i j : Nat} {s t : Ty} {xs ys : List Value} (h : Ty.mostSpecific s t = none) :
    ¬ Applicable .plus (.arr i s xs) (.arr j t ys) := by
  intro ha
  have hs := Ty.mostSpecific_spec s t
  rw [h] at hs
  cases ha with
  | numbers _ h1 => cases h1
  | arrs h1 h2 => exact hs _ ⟨h1, h2⟩

/-- The kinds of values for which an operator can be applicable. -/
def applicableBool : BinOp → Value → Value → Bool
  | _, .int _, .int _ => true
  | .mod, _, _ => false
  | _, .int _, .frac _ => true
  | _, .frac _, .int _ => true
  | _, .frac _, .frac _ => true
  | .plus, .str _, .str _ => true
  | .plus, .arr _ _ _, .arr _ _ _ => true
  | _, _, _ => false

theorem applicable_bool {op : BinOp} {a b : Value} (h : Applicable op a b) : applicableBool op a b = true := by
  cases h with
  | numbers h1 h2 h3 => cases op <;> cases h2 <;> cases h3 <;> first | rfl | exact absurd rfl h1
  | ints i j => cases op <;> rfl
  | strs => rfl
  | arrs => rfl

theorem table_sound {op : BinOp} {a b : Value} {r : OpResult} (h : OpTable op a b r) :
    (binSem op a b).Says r := by
  cases h with
  | addInt x y => rfl
  | subInt x y => rfl
  | mulInt x y => rfl
  | addFrac hs h1 h2 => cases h1 <;> cases h2 <;> first | rfl | (rcases hs with ⟨q, h⟩ | ⟨q, h⟩ <;> cases h)
  | subFrac hs h1 h2 => cases h1 <;> cases h2 <;> first | rfl | (rcases hs with ⟨q, h⟩ | ⟨q, h⟩ <;> cases h)
  | mulFrac hs h1 h2 => cases h1 <;> cases h2 <;> first | rfl | (rcases hs with ⟨q, h⟩ | ⟨q, h⟩ <;> cases h)
  | div h1 h2 h3 => cases h1 <;> cases h2 <;> simp only [binSem, divSem, h3, if_false] <;> rfl
  | @divZero _ _ x h1 h2 =>
    generalize hz : (0 : Rat) = z at h2
    cases h1 <;> cases h2 <;> simp only [binSem, divSem, ← hz, if_true] <;> trivial
  | mod h0 h1 h2 h3 =>
    simp only [binSem, h0, if_false]
    exact congrArg _ (tmod_spec h1 h2 h3).symm
  | modZero x => trivial
  | concatStr s t => rfl
  | concatArr hl =>
    obtain ⟨f, hm⟩ := lcr_pair.1 hl
    simp only [binSem, hm]
    exact ⟨_, rfl⟩
  | @mismatch op a b t1 t2 hn h1 h2 =>
    rw [countsAs_det] at h1 h2
    subst h1; subst h2
    cases op <;> cases a <;> cases b <;> first
      | exact ⟨rfl, rfl⟩
      | exact (hn (.ints _ _)).elim
      | exact (hn (.strs _ _)).elim
      | exact (hn (.numbers (by decide) (.int _) (.frac _))).elim
      | exact (hn (.numbers (by decide) (.frac _) (.int _))).elim
      | exact (hn (.numbers (by decide) (.frac _) (.frac _))).elim
      | skip
    rename_i i s xs j t ys
    simp only [binSem]
    cases hm : Ty.mostSpecific s t with
    | none => exact ⟨rfl, rfl⟩
    | some x =>
      have hs := Ty.mostSpecific_spec s t
      rw [hm] at hs
      exact absurd (.arrs hs.1 hs.2.1) hn

theorem table_complete (op : BinOp) (a b : Value) {r : OpResult} (h : (binSem op a b).Says r) :
    OpTable op a b r := by
  have bad : ∀ t1 t2, binSem op a b = .bad t1 t2 → t1 = (promotedTypes a b).1 → t2 = (promotedTypes a b).2 →
      ¬ Applicable op a b → OpTable op a b r := by
    intro t1 t2 h1 h2 h3 hn
    rw [h1] at h
    cases r with
    | mismatch u1 u2 =>
      obtain ⟨rfl, rfl⟩ := h
      rw [h2, h3]
      exact .mismatch hn (promoted_countsAs a b).1 (promoted_countsAs a b).2
    | value v => exact h.elim
    | zero => exact h.elim
  have val : ∀ v, binSem op a b = .val v → OpTable op a b (.value v) → OpTable op a b r := by
    intro v h1 h2
    rw [h1] at h
    cases r with
    | value w => cases h; exact h2
    | mismatch u1 u2 => exact h.elim
    | zero => exact h.elim
  have zero : binSem op a b = .divisionByZero → OpTable op a b .zero → OpTable op a b r := by
    intro h1 h2
    rw [h1] at h
    cases r with
    | zero => exact h2
    | value w => exact h.elim
    | mismatch u1 u2 => exact h.elim
  have div : ∀ x y, op = .div → binSem op a b = divSem x y → IsNumber a x → IsNumber b y → OpTable op a b r := by
    intro x y h1 h2 h3 h4
    subst h1
    unfold divSem at h2
    by_cases hy : y = 0
    · subst hy
      rw [if_pos rfl] at h2
      exact zero h2 (.divZero h3 h4)
    · rw [if_neg hy] at h2
      exact val _ h2 (.div h3 h4 hy)
  cases op <;> cases a <;> cases b <;> first
    | exact bad _ _ rfl rfl rfl (fun h => Bool.false_ne_true (applicable_bool h))
    | exact val _ rfl (.addInt _ _)
    | exact val _ rfl (.subInt _ _)
    | exact val _ rfl (.mulInt _ _)
    | exact val _ rfl (.addFrac (.inr ⟨_, rfl⟩) (.int _) (.frac _))
    | exact val _ rfl (.addFrac (.inl ⟨_, rfl⟩) (.frac _) (.int _))
    | exact val _ rfl (.addFrac (.inl ⟨_, rfl⟩) (.frac _) (.frac _))
    | exact val _ rfl (.subFrac (.inr ⟨_, rfl⟩) (.int _) (.frac _))
    | exact val _ rfl (.subFrac (.inl ⟨_, rfl⟩) (.frac _) (.int _))
    | exact val _ rfl (.subFrac (.inl ⟨_, rfl⟩) (.frac _) (.frac _))
    | exact val _ rfl (.mulFrac (.inr ⟨_, rfl⟩) (.int _) (.frac _))
    | exact val _ rfl (.mulFrac (.inl ⟨_, rfl⟩) (.frac _) (.int _))
    | exact val _ rfl (.mulFrac (.inl ⟨_, rfl⟩) (.frac _) (.frac _))
    | exact val _ rfl (.concatStr _ _)
    | exact div _ _ rfl rfl (.int _) (.int _)
    | exact div _ _ rfl rfl (.int _) (.frac _)
    | exact div _ _ rfl rfl (.frac _) (.int _)
    | exact div _ _ rfl rfl (.frac _) (.frac _)
    | skip
  case plus.arr.arr i s xs j t ys =>
    cases hm : Ty.mostSpecific s t with
    | none =>
      have : binSem .plus (.arr i s xs) (.arr j t ys) = .bad (.arr s) (.arr t) := by simp only [binSem, hm]; rfl
      exact bad _ _ this rfl rfl (applicable_arr hm)
    | some x =>
      obtain ⟨u, f⟩ := x
      simp only [binSem, hm] at h
      cases r with
      | value w => obtain ⟨id, rfl⟩ := h; exact .concatArr (lcr_pair.2 ⟨f, hm⟩)
      | mismatch u1 u2 => exact h.elim
      | zero => exact h.elim
  case mod.int.int x y =>
    by_cases hy : y = 0
    · subst hy; exact zero rfl (.modZero x)
    · have : binSem .mod (.int x) (.int y) = .val (.int (Int.tmod x y)) := by simp only [binSem, hy, if_false]
      exact val _ this (tmod_table x y hy)

theorem table_iff (op : BinOp) (a b : Value) (r : OpResult) : OpTable op a b r ↔ (binSem op a b).Says r :=
  ⟨table_sound, table_complete op a b⟩


/-! ## Data determines the result -/

theorem data_number {a a' : Value} {x : Rat} (h : IsNumber a x) (e : a.data = a'.data) : a' = a := by
  cases h <;> cases a' <;> simp_all [Value.data]

theorem data_int {a' : Value} {x : Int} (e : (Value.int x).data = a'.data) : a' = .int x :=
  data_number (.int x) e

theorem data_str {a' : Value} {x : Str} (e : (Value.str x).data = a'.data) : a' = .str x := by
  cases a' <;> simp_all [Value.data]

/-- The value of an operation depends only on the data of the operands. -/
theorem table_data {op : BinOp} {a b a' b' : Value} {v : Value} (ha : a.data = a'.data)
    (hb : b.data = b'.data) (h : OpTable op a b (.value v)) :
    ∃ v', OpTable op a' b' (.value v') ∧ v'.data = v.data := by
  cases h with
  | addInt x y => obtain rfl := data_int ha; obtain rfl := data_int hb; exact ⟨_, .addInt x y, rfl⟩
  | subInt x y => obtain rfl := data_int ha; obtain rfl := data_int hb; exact ⟨_, .subInt x y, rfl⟩
  | mulInt x y => obtain rfl := data_int ha; obtain rfl := data_int hb; exact ⟨_, .mulInt x y, rfl⟩
  | addFrac hs h1 h2 =>
    obtain rfl := data_number h1 ha; obtain rfl := data_number h2 hb; exact ⟨_, .addFrac hs h1 h2, rfl⟩
  | subFrac hs h1 h2 =>
    obtain rfl := data_number h1 ha; obtain rfl := data_number h2 hb; exact ⟨_, .subFrac hs h1 h2, rfl⟩
  | mulFrac hs h1 h2 =>
    obtain rfl := data_number h1 ha; obtain rfl := data_number h2 hb; exact ⟨_, .mulFrac hs h1 h2, rfl⟩
  | div h1 h2 h3 =>
    obtain rfl := data_number h1 ha; obtain rfl := data_number h2 hb; exact ⟨_, .div h1 h2 h3, rfl⟩
  | mod h0 h1 h2 h3 => obtain rfl := data_int ha; obtain rfl := data_int hb; exact ⟨_, .mod h0 h1 h2 h3, rfl⟩
  | concatStr s t => obtain rfl := data_str ha; obtain rfl := data_str hb; exact ⟨_, .concatStr s t, rfl⟩
  | @concatArr i j id s t u xs ys hl =>
    cases a' with
    | arr i' s' xs' =>
      cases b' with
      | arr j' t' ys' =>
        simp only [Value.data, Value.arr.injEq, true_and] at ha hb
        obtain ⟨rfl, ha⟩ := ha
        obtain ⟨rfl, hb⟩ := hb
        refine ⟨_, .concatArr (id := 0) hl, ?_⟩
        simp only [Value.data]
        simp only [Value.dataL_eq] at ha hb ⊢
        simp [List.map_append, ha, hb]
      | _ => simp [Value.data] at hb
    | _ => simp [Value.data] at ha

/-- Two values of the same tree differ at most in the ids of containers. -/
theorem treeValue_data : ∀ {t : OpTree} {u v : Value}, TreeValue t u → TreeValue t v → u.data = v.data := by
  intro t u v h
  induction h generalizing v with
  | leaf w => intro h'; cases h'; rfl
  | node h1 h2 h3 ih1 ih2 =>
    intro h'
    cases h' with
    | node h1' h2' h3' =>
      obtain ⟨w, hw, hd⟩ := table_data (ih1 h1') (ih2 h2') h3
      rw [← hd]
      have a := (table_iff _ _ _ _).1 hw
      have b := (table_iff _ _ _ _).1 h3'
      revert a b
      generalize binSem _ _ _ = r
      cases r with
      | val x => intro a b; cases a; cases b; rfl
      | newArr t vs => rintro ⟨i, rfl⟩ ⟨j, rfl⟩; rfl
      | bad _ _ => intro a; exact a.elim
      | divisionByZero => intro a; exact a.elim

/-! ## Reading a chain as a tree -/

/-- A partly read chain: the sum so far with a pending `+` or `-`, and the current product. -/
abbrev Reading := Option (OpTree × BinOp) × OpTree

def Reading.step (x : Reading) (p : BinOp × Value) : Reading :=
  if p.1.tight then (x.1, .node p.1 x.2 (.leaf p.2))
  else (some ((match x.1 with | none => x.2 | some (l, op) => .node op l x.2), p.1), .leaf p.2)

def Reading.tree (x : Reading) : OpTree := match x.1 with
  | none => x.2
  | some (l, op) => .node op l x.2

theorem product_reading {v : Value} {r : List (BinOp × Value)} {t : OpTree} (h : ProductTree v r t)
    (acc : Option (OpTree × BinOp)) : r.foldl Reading.step (acc, .leaf v) = (acc, t) := by
  induction h with
  | one => rfl
  | times h ho ih =>
    rw [List.foldl_append, ih]
    rcases ho with rfl | rfl | rfl <;> rfl

theorem sum_reading {v : Value} {r : List (BinOp × Value)} {t : OpTree} (h : SumTree v r t) :
    Reading.tree (r.foldl Reading.step (none, .leaf v)) = t := by
  induction h with
  | product h => rw [product_reading h]; rfl
  | @plus w r q t u op h ho hp ih =>
    rw [List.foldl_append, List.foldl_cons]
    have : Reading.step (r.foldl Reading.step (none, .leaf v)) (op, w) = (some (t, op), .leaf w) := by
      rw [← ih]
      rcases ho with rfl | rfl <;> rfl
    rw [this, product_reading hp]
    rfl

theorem sumTree_unique {v : Value} {r : List (BinOp × Value)} {t u : OpTree} (h : SumTree v r t)
    (h' : SumTree v r u) : t = u := by rw [← sum_reading h, sum_reading h']

theorem tight_iff (op : BinOp) : op.tight = true ↔ op = .mult ∨ op = .div ∨ op = .mod := by
  cases op <;> decide

theorem not_tight_iff (op : BinOp) : op.tight = false ↔ op = .plus ∨ op = .minus := by
  cases op <;> decide

theorem sumTree_snoc {v w : Value} {r : List (BinOp × Value)} {t : OpTree} {op : BinOp} (h : SumTree v r t) :
    ∃ u, SumTree v (r ++ [(op, w)]) u := by
  cases hp : op.tight with
  | true =>
    rw [tight_iff] at hp
    cases h with
    | product h => exact ⟨_, .product (.times h hp)⟩
    | plus h ho hq =>
      have := SumTree.plus h ho (.times (w := w) hq hp)
      rw [← List.cons_append, ← List.append_assoc] at this
      exact ⟨_, this⟩
  | false =>
    rw [not_tight_iff] at hp
    exact ⟨_, .plus h hp (.one w)⟩

theorem sumTree_exists (v : Value) (r : List (BinOp × Value)) : ∃ t, SumTree v r t := by
  induction r using List.reverseRecOn with
  | nil => exact ⟨_, .product (.one v)⟩
  | append_singleton r p ih =>
    obtain ⟨t, ht⟩ := ih
    exact sumTree_snoc ht

/-! ## Evaluating chains of values -/

/-- The products of a chain of values. -/
def groupVals (file : Option Str) : List (BinOp × Value) → Value → EM (Value × List (BinOp × Value))
  | [], v => pure (v, [])
  | (op, w) :: r, v =>
    if op.tight then do
      let u ← applyBin file op v w
      groupVals file r u
    else do
      let (p, sums) ← groupVals file r w
      pure (v, (op, p) :: sums)

/-- A chain of values. -/
def chainVals (file : Option Str) (v : Value) (r : List (BinOp × Value)) : EM Value := do
  let (p, sums) ← groupVals file r v
  sumLeft file p sums

theorem applyBin_value {file : Option Str} {op : BinOp} {a b v : Value} (h : OpTable op a b (.value v)) (st : ESt) :
    ∃ v' st', applyBin file op a b st = .ok (v', st') ∧ OpTable op a b (.value v') ∧ v'.data = v.data ∧
      (op.tight = true → v' = v ∧ st' = st) := by
  have hs := (table_iff _ _ _ _).1 h
  unfold applyBin
  generalize hb : binSem op a b = r at hs
  cases r with
  | val x => cases hs; exact ⟨_, st, rfl, h, rfl, fun _ => ⟨rfl, rfl⟩⟩
  | newArr t vs =>
    obtain ⟨id, rfl⟩ := hs
    refine ⟨.arr st.rt.curId t vs, _, rfl, ?_, rfl, ?_⟩
    · rw [table_iff, hb]; exact ⟨_, rfl⟩
    · intro hp
      exfalso
      cases op <;> cases a <;> cases b <;> first
        | (simp only [binSem] at hb; cases hb)
        | (cases hp; done)
        | (simp only [binSem, divSem] at hb; split at hb <;> cases hb)
  | bad _ _ => exact hs.elim
  | divisionByZero => exact hs.elim

theorem applyBin_ok {file : Option Str} {op : BinOp} {a b v : Value} {st st' : ESt}
    (h : applyBin file op a b st = .ok (v, st')) : OpTable op a b (.value v) := by
  rw [table_iff]
  unfold applyBin at h
  generalize binSem op a b = r at h
  cases r with
  | val x => cases h; rfl
  | newArr t vs => cases h; exact ⟨_, rfl⟩
  | bad _ _ => cases h
  | divisionByZero => cases h

theorem group_product {file : Option Str} {v : Value} {r : List (BinOp × Value)} {t : OpTree}
    (h : ProductTree v r t) : ∀ {u : Value}, TreeValue t u → ∀ (rest : List (BinOp × Value)) (st : ESt),
    groupVals file (r ++ rest) v st = groupVals file rest u st := by
  induction h with
  | one => intro u hu rest st; cases hu; rfl
  | @times w r t op h ho ih =>
    intro u hu rest st
    cases hu with
    | node h1 h2 h3 =>
      cases h2
      rw [List.append_assoc, ih h1]
      obtain ⟨v', st', h4, -, -, h5⟩ := applyBin_value (file := file) h3 st
      have hp := (tight_iff op).2 ho
      obtain ⟨rfl, rfl⟩ := h5 hp
      simp only [List.cons_append, List.nil_append, groupVals, hp, if_true]
      rw [EM.bind_ok h4]

theorem group_append {file : Option Str} {op : BinOp} {w w' : Value} {q : List (BinOp × Value)}
    (ho : op.tight = false) (hq : ∀ st, groupVals file q w st = .ok ((w', []), st)) :
    ∀ (r : List (BinOp × Value)) (v p : Value) (sums : List (BinOp × Value)) (st : ESt),
    groupVals file r v st = .ok ((p, sums), st) →
    groupVals file (r ++ (op, w) :: q) v st = .ok ((p, sums ++ [(op, w')]), st)
  | [], v, p, sums, st, h => by
    cases h
    simp only [List.nil_append, groupVals, ho, Bool.false_eq_true, if_false]
    rw [EM.bind_ok (hq st)]
    rfl
  | (op', x) :: r, v, p, sums, st, h => by
    simp only [groupVals, List.cons_append] at h ⊢
    by_cases hp : op'.tight = true
    · rw [if_pos hp] at h ⊢
      cases hb : applyBin file op' v x st with
      | error e => rw [EM.bind_err hb] at h; cases h
      | ok y =>
        obtain ⟨u, st1⟩ := y
        have h1 := applyBin_ok hb
        obtain ⟨v', st', h4, -, -, h5⟩ := applyBin_value (file := file) h1 st
        obtain ⟨rfl, rfl⟩ := h5 hp
        rw [hb] at h4
        cases h4
        rw [EM.bind_ok hb] at h ⊢
        exact group_append ho hq r _ _ _ _ h
    · rw [if_neg hp] at h ⊢
      cases hg : groupVals file r x st with
      | error e => rw [EM.bind_err hg] at h; cases h
      | ok y =>
        obtain ⟨⟨p1, sums1⟩, st1⟩ := y
        rw [EM.bind_ok hg] at h
        cases h
        rw [EM.bind_ok (group_append ho hq r _ _ _ _ hg)]
        rfl

theorem sumLeft_append {file : Option Str} : ∀ (a b : List (BinOp × Value)) (v : Value),
    sumLeft file v (a ++ b) = (do let u ← sumLeft file v a; sumLeft file u b)
  | [], b, v => rfl
  | (op, w) :: a, b, v => by
    funext st
    simp only [List.cons_append, sumLeft]
    cases h : applyBin file op v w st with
    | error e =>
      rw [EM.bind_err h, EM.bind_err]
      exact EM.bind_err h
    | ok x =>
      obtain ⟨u, st'⟩ := x
      rw [EM.bind_ok h, sumLeft_append a b u]
      show EM.bind _ _ _ = EM.bind _ _ _
      unfold EM.bind
      rw [EM.bind_ok h]

/-- A chain whose reading has a value is evaluated to it, up to the ids of containers. -/
theorem chain_of_tree {file : Option Str} {v : Value} {r : List (BinOp × Value)} {t : OpTree}
    (h : SumTree v r t) : ∀ {u : Value}, TreeValue t u → ∀ st : ESt, ∃ p sums u' st',
      (∀ st, groupVals file r v st = .ok ((p, sums), st)) ∧ sumLeft file p sums st = .ok (u', st') ∧
      TreeValue t u' ∧ u'.data = u.data := by
  induction h with
  | @product r t h =>
    intro u hu st
    refine ⟨u, [], u, st, fun st => ?_, rfl, hu, rfl⟩
    have := group_product (file := file) h hu [] st
    rw [List.append_nil] at this
    rw [this]
    rfl
  | @plus w r q t t2 op h ho hp ih =>
    intro u hu st
    cases hu with
    | @node _ _ _ a b _ h1 h2 h3 =>
      obtain ⟨p, sums, u1, st1, h4, h5, h6, h7⟩ := ih h1 st
      have hop := (not_tight_iff op).2 ho
      have hq : ∀ st, groupVals file q w st = .ok ((b, []), st) := by
        intro st
        have := group_product (file := file) hp h2 [] st
        rw [List.append_nil] at this
        rw [this]
        rfl
      obtain ⟨u2, h8, h9⟩ := table_data h7.symm rfl h3
      obtain ⟨u3, st3, h10, h11, h12, -⟩ := applyBin_value (file := file) h8 st1
      refine ⟨p, sums ++ [(op, b)], u3, st3, fun st => group_append hop hq r v p sums st (h4 st), ?_,
        .node h6 h2 h11, h12.trans h9⟩
      rw [sumLeft_append, EM.bind_ok h5]
      simp only [sumLeft]
      rw [EM.bind_ok h10]
      rfl

/-- What the pending sum of a reading does with the following products. -/
def finish (file : Option Str) : Option (Value × BinOp) → Value → List (BinOp × Value) → EM Value
  | none, p, sums => sumLeft file p sums
  | some (x, op), p, sums => sumLeft file x ((op, p) :: sums)

/-- The pending sum has the value. -/
def PendingValue : Option (OpTree × BinOp) → Option (Value × BinOp) → Prop
  | none, none => True
  | some (l, op), some (x, op') => TreeValue l x ∧ op = op'
  | _, _ => False

theorem tree_of_group {file : Option Str} : ∀ (r : List (BinOp × Value)) (v p u : Value) (sums : List (BinOp × Value))
    (acc : Option (OpTree × BinOp)) (x : Option (Value × BinOp)) (cur : OpTree) (st st1 st2 st3 : ESt),
    groupVals file r v st = .ok ((p, sums), st1) → finish file x p sums st2 = .ok (u, st3) →
    TreeValue cur v → PendingValue acc x → TreeValue (Reading.tree (r.foldl Reading.step (acc, cur))) u
  | [], v, p, u, sums, acc, x, cur, st, st1, st2, st3, hg, hf, hc, ha => by
    cases hg
    match acc, x, ha with
    | none, none, _ => cases hf; exact hc
    | some (l, op), some (y, _), ⟨h, rfl⟩ =>
      simp only [finish, sumLeft] at hf
      cases hb : applyBin file op y v st2 with
      | error e => rw [EM.bind_err hb] at hf; cases hf
      | ok z =>
        obtain ⟨a, st'⟩ := z
        rw [EM.bind_ok hb] at hf
        cases hf
        exact .node h hc (applyBin_ok hb)
  | (op, w) :: r, v, p, u, sums, acc, x, cur, st, st1, st2, st3, hg, hf, hc, ha => by
    simp only [groupVals] at hg
    rw [List.foldl_cons]
    by_cases hp : op.tight = true
    · rw [if_pos hp] at hg
      cases hb : applyBin file op v w st with
      | error e => rw [EM.bind_err hb] at hg; cases hg
      | ok z =>
        obtain ⟨a, st'⟩ := z
        rw [EM.bind_ok hb] at hg
        have : Reading.step (acc, cur) (op, w) = (acc, .node op cur (.leaf w)) := by
          simp only [Reading.step, hp, if_true]
        rw [this]
        exact tree_of_group r _ _ _ _ _ x _ _ _ _ _ hg hf (.node hc (.leaf w) (applyBin_ok hb)) ha
    · rw [if_neg hp] at hg
      cases hb : groupVals file r w st with
      | error e => rw [EM.bind_err hb] at hg; cases hg
      | ok z =>
        obtain ⟨⟨p1, sums1⟩, st'⟩ := z
        rw [EM.bind_ok hb] at hg
        cases hg
        match acc, x, ha with
        | none, none, _ =>
          have : Reading.step (none, cur) (op, w) = (some (cur, op), .leaf w) := by
            simp only [Reading.step, hp, if_false, Bool.false_eq_true]
          rw [this]
          exact tree_of_group r _ _ _ _ _ (some (v, op)) _ _ _ _ _ hb hf (.leaf w) ⟨hc, rfl⟩
        | some (l, op0), some (y, _), ⟨h, rfl⟩ =>
          have : Reading.step (some (l, op0), cur) (op, w) = (some (.node op0 l cur, op), .leaf w) := by
            simp only [Reading.step, hp, if_false, Bool.false_eq_true]
          rw [this]
          simp only [finish] at hf
          rw [sumLeft] at hf
          cases hb2 : applyBin file op0 y v st2 with
          | error e => rw [EM.bind_err hb2] at hf; cases hf
          | ok z =>
            obtain ⟨a, st'⟩ := z
            rw [EM.bind_ok hb2] at hf
            exact tree_of_group r _ _ _ _ _ (some (a, op)) _ _ _ _ _ hb hf (.leaf w)
              ⟨.node h hc (applyBin_ok hb2), rfl⟩

/-- The value of an evaluated chain is the value of its reading. -/
theorem tree_of_chain {file : Option Str} {v u : Value} {r : List (BinOp × Value)} {t : OpTree} {st st' : ESt}
    (ht : SumTree v r t) (h : chainVals file v r st = .ok (u, st')) : TreeValue t u := by
  unfold chainVals at h
  cases hg : groupVals file r v st with
  | error e => rw [EM.bind_err hg] at h; cases h
  | ok z =>
    obtain ⟨⟨p, sums⟩, st1⟩ := z
    rw [EM.bind_ok hg] at h
    rw [← sum_reading ht]
    exact tree_of_group r v p u sums none none (.leaf v) _ _ _ _ hg h (.leaf v) trivial

/-- A chain is evaluated exactly when its reading has a value. -/
theorem chain_iff_tree {file : Option Str} {v : Value} {r : List (BinOp × Value)} {t : OpTree} (st : ESt)
    (ht : SumTree v r t) : (∃ u st', chainVals file v r st = .ok (u, st')) ↔ ∃ u, TreeValue t u := by
  constructor
  · rintro ⟨u, st', h⟩; exact ⟨u, tree_of_chain ht h⟩
  · rintro ⟨u, h⟩
    obtain ⟨p, sums, u', st', h1, h2, -, -⟩ := chain_of_tree (file := file) ht h st
    refine ⟨u', st', ?_⟩
    unfold chainVals
    rw [EM.bind_ok (h1 st)]
    exact h2

/-! ## Chains of operands -/

section
variable {fs : FS} {file : Option Str} {stack : List Str} {load : Loader}

/-- The operand's value is known without evaluating anything further. -/
def Known (fs : FS) (file : Option Str) (stack : List Str) (load : Loader) (ps : List Pair) (d : Nat) (ot : OpTerm)
    (p : BinOp × Value) : Prop :=
  ∃ t, ot = .mk p.1 t ∧ ∀ st, evalTerm fs file stack load t ps d st = .ok (p.2, st)

theorem evalChain_known {ps : List Pair} {d : Nat} : ∀ {r : List OpTerm} {ws : List (BinOp × Value)},
    List.Forall₂ (Known fs file stack load ps d) r ws → ∀ (v : Value) (st : ESt),
    evalChain fs file stack load r v ps d st = groupVals file ws v st
  | _, _, .nil, v, st => by simp only [evalChain, groupVals]
  | _, _, @List.Forall₂.cons _ _ _ ot p r ws ⟨t, h1, h2⟩ h, v, st => by
    subst h1
    obtain ⟨op, w⟩ := p
    simp only [evalChain, groupVals]
    rw [EM.bind_ok (h2 st)]
    by_cases hp : op.tight = true
    · rw [if_pos hp, if_pos hp]
      cases hb : applyBin file op v w st with
      | error e => rw [EM.bind_err hb, EM.bind_err hb]
      | ok z =>
        obtain ⟨a, st'⟩ := z
        rw [EM.bind_ok hb, EM.bind_ok hb]
        exact evalChain_known h a st'
    · rw [if_neg hp, if_neg hp]
      have ih := evalChain_known h w st
      cases hb : groupVals file ws w st with
      | error e => rw [EM.bind_err hb, EM.bind_err (ih.trans hb)]
      | ok z =>
        obtain ⟨a, st'⟩ := z
        rw [EM.bind_ok hb, EM.bind_ok (ih.trans hb)]

theorem evalExpr_known {ps : List Pair} {d : Nat} {t : Term} {v : Value}
    (ht : ∀ st, evalTerm fs file stack load t ps d st = .ok (v, st)) {r : List OpTerm} {ws : List (BinOp × Value)}
    (h : List.Forall₂ (Known fs file stack load ps d) r ws) (st : ESt) :
    evalExpr fs file stack load (.mk t r) ps d st = chainVals file v ws st := by
  simp only [evalExpr, chainVals]
  rw [EM.bind_ok (ht st)]
  have := evalChain_known h v st
  cases hb : groupVals file ws v st with
  | error e => rw [EM.bind_err hb, EM.bind_err (this.trans hb)]
  | ok z =>
    obtain ⟨a, st'⟩ := z
    rw [EM.bind_ok hb, EM.bind_ok (this.trans hb)]

theorem chainVals_one (v w : Value) (op : BinOp) (st : ESt) : chainVals file v [(op, w)] st = applyBin file op v w st := by
  simp only [chainVals, groupVals]
  by_cases hp : op.tight = true
  · rw [if_pos hp]
    cases hb : applyBin file op v w st with
    | error e =>
      refine EM.bind_err ?_
      exact EM.bind_err hb
    | ok z =>
      obtain ⟨a, st'⟩ := z
      refine (EM.bind_ok (a := (a, [])) (st' := st') ?_).trans rfl
      exact EM.bind_ok hb
  · rw [if_neg hp]
    refine (EM.bind_ok (a := (v, [(op, w)])) (st' := st) rfl).trans ?_
    simp only [sumLeft]
    cases hb : applyBin file op v w st with
    | error e => exact EM.bind_err hb
    | ok z => obtain ⟨a, st'⟩ := z; exact EM.bind_ok hb

/-- Products have no effects. -/
theorem applyBin_product {op : BinOp} {a b v : Value} {st st' : ESt} (hp : op.tight = true)
    (h : applyBin file op a b st = .ok (v, st')) : st' = st ∧ ∀ s, applyBin file op a b s = .ok (v, s) := by
  have h1 := applyBin_ok h
  constructor
  · obtain ⟨v', s', h4, -, -, h5⟩ := applyBin_value (file := file) h1 st
    obtain ⟨rfl, rfl⟩ := h5 hp
    rw [h] at h4
    cases h4; rfl
  · intro s
    obtain ⟨v', s', h4, -, -, h5⟩ := applyBin_value (file := file) h1 s
    obtain ⟨rfl, rfl⟩ := h5 hp
    exact h4

theorem groupVals_pure : ∀ {r : List (BinOp × Value)} {v p : Value} {sums : List (BinOp × Value)} {st st' : ESt},
    groupVals file r v st = .ok ((p, sums), st') → st' = st ∧ ∀ s, groupVals file r v s = .ok ((p, sums), s)
  | [], v, p, sums, st, st', h => by cases h; exact ⟨rfl, fun s => rfl⟩
  | (op, w) :: r, v, p, sums, st, st', h => by
    simp only [groupVals] at h ⊢
    by_cases hp : op.tight = true
    · rw [if_pos hp] at h ⊢
      cases hb : applyBin file op v w st with
      | error e => rw [EM.bind_err hb] at h; cases h
      | ok z =>
        obtain ⟨a, st2⟩ := z
        rw [EM.bind_ok hb] at h
        obtain ⟨rfl, hb2⟩ := applyBin_product hp hb
        obtain ⟨h1, h2⟩ := groupVals_pure h
        refine ⟨h1, fun s => ?_⟩
        rw [EM.bind_ok (hb2 s)]
        exact h2 s
    · rw [if_neg hp] at h ⊢
      cases hg : groupVals file r w st with
      | error e => rw [EM.bind_err hg] at h; cases h
      | ok z =>
        obtain ⟨⟨p1, sums1⟩, st2⟩ := z
        rw [EM.bind_ok hg] at h
        cases h
        obtain ⟨h1, h2⟩ := groupVals_pure hg
        refine ⟨h1, fun s => ?_⟩
        rw [EM.bind_ok (h2 s)]
        rfl

/-- Operands first, then the products. -/
theorem evalChain_split {ps : List Pair} {d : Nat} : ∀ (r : List OpTerm) (v p : Value) (sums : List (BinOp × Value))
    (st st' : ESt), evalChain fs file stack load r v ps d st = .ok ((p, sums), st') ↔
      ∃ ws, evalOperands fs file stack load r ps d st = .ok (ws, st') ∧ ∀ s, groupVals file ws v s = .ok ((p, sums), s)
  | [], v, p, sums, st, st' => by
    simp only [evalChain, evalOperands]
    constructor
    · intro h; cases h; exact ⟨[], rfl, fun s => rfl⟩
    · rintro ⟨ws, h1, h2⟩
      cases h1
      have := h2 st
      cases this
      rfl
  | .mk op t :: r, v, p, sums, st, st' => by
    simp only [evalChain, evalOperands]
    cases ht : evalTerm fs file stack load t ps d st with
    | error e => rw [EM.bind_err ht, EM.bind_err ht]; simp
    | ok x =>
      obtain ⟨w, st1⟩ := x
      rw [EM.bind_ok ht, EM.bind_ok ht]
      by_cases hp : op.tight = true
      · rw [if_pos hp]
        constructor
        · intro h
          cases hb : applyBin file op v w st1 with
          | error e => rw [EM.bind_err hb] at h; cases h
          | ok z =>
            obtain ⟨a, st2⟩ := z
            rw [EM.bind_ok hb] at h
            obtain ⟨rfl, hb2⟩ := applyBin_product hp hb
            obtain ⟨ws, h1, h2⟩ := (evalChain_split r a p sums _ _).1 h
            refine ⟨(op, w) :: ws, ?_, ?_⟩
            · rw [EM.bind_ok h1]; rfl
            · intro s
              simp only [groupVals, hp, if_true]
              rw [EM.bind_ok (hb2 s)]
              exact h2 s
        · rintro ⟨ws', h1, h2⟩
          cases ho : evalOperands fs file stack load r ps d st1 with
          | error e => rw [EM.bind_err ho] at h1; cases h1
          | ok z =>
            obtain ⟨ws, st2⟩ := z
            rw [EM.bind_ok ho] at h1
            cases h1
            have h3 := h2 st1
            simp only [groupVals, hp, if_true] at h2 h3
            cases hb : applyBin file op v w st1 with
            | error e => rw [EM.bind_err hb] at h3; cases h3
            | ok z =>
              obtain ⟨a, st3⟩ := z
              obtain ⟨rfl, hb2⟩ := applyBin_product hp hb
              rw [EM.bind_ok hb]
              refine (evalChain_split r a p sums _ _).2 ⟨ws, ho, fun s => ?_⟩
              have := h2 s
              rw [EM.bind_ok (hb2 s)] at this
              exact this
      · rw [if_neg hp]
        constructor
        · intro h
          cases hc : evalChain fs file stack load r w ps d st1 with
          | error e => rw [EM.bind_err hc] at h; cases h
          | ok z =>
            obtain ⟨⟨p1, sums1⟩, st2⟩ := z
            rw [EM.bind_ok hc] at h
            cases h
            obtain ⟨ws, h1, h2⟩ := (evalChain_split r w p1 sums1 _ _).1 hc
            refine ⟨(op, w) :: ws, ?_, ?_⟩
            · rw [EM.bind_ok h1]; rfl
            · intro s
              simp only [groupVals, hp, if_false, Bool.false_eq_true]
              rw [EM.bind_ok (h2 s)]; rfl
        · rintro ⟨ws', h1, h2⟩
          cases ho : evalOperands fs file stack load r ps d st1 with
          | error e => rw [EM.bind_err ho] at h1; cases h1
          | ok z =>
            obtain ⟨ws, st2⟩ := z
            rw [EM.bind_ok ho] at h1
            cases h1
            simp only [groupVals, hp, if_false, Bool.false_eq_true] at h2
            have h3 := h2 st1
            cases hg : groupVals file ws w st1 with
            | error e => rw [EM.bind_err hg] at h3; cases h3
            | ok z =>
              obtain ⟨⟨p1, sums1⟩, st3⟩ := z
              rw [EM.bind_ok hg] at h3
              cases h3
              have := (evalChain_split r w p1 sums1 st1 st').2 ⟨ws, ho, fun s => by
                have h4 := h2 s
                cases hg' : groupVals file ws w s with
                | error e => rw [EM.bind_err hg'] at h4; cases h4
                | ok z =>
                  obtain ⟨⟨p2, sums2⟩, st4⟩ := z
                  rw [EM.bind_ok hg'] at h4
                  cases h4; rfl⟩
              rw [EM.bind_ok this]
              rfl

/-- A chain is evaluated: first its operands, from left to right, then its reading. -/
theorem evalExpr_split {ps : List Pair} {d : Nat} (t : Term) (r : List OpTerm) (u : Value) (st st' : ESt) :
    evalExpr fs file stack load (.mk t r) ps d st = .ok (u, st') ↔
      ∃ v st1 ws st2, evalTerm fs file stack load t ps d st = .ok (v, st1) ∧
        evalOperands fs file stack load r ps d st1 = .ok (ws, st2) ∧ chainVals file v ws st2 = .ok (u, st') := by
  simp only [evalExpr]
  cases ht : evalTerm fs file stack load t ps d st with
  | error e => rw [EM.bind_err ht]; simp
  | ok x =>
    obtain ⟨v, st1⟩ := x
    rw [EM.bind_ok ht]
    constructor
    · intro h
      cases hc : evalChain fs file stack load r v ps d st1 with
      | error e => rw [EM.bind_err hc] at h; cases h
      | ok z =>
        obtain ⟨⟨p, sums⟩, st2⟩ := z
        rw [EM.bind_ok hc] at h
        obtain ⟨ws, h1, h2⟩ := (evalChain_split r v p sums _ _).1 hc
        exact ⟨v, st1, ws, st2, rfl, h1, by unfold chainVals; rw [EM.bind_ok (h2 st2)]; exact h⟩
    · rintro ⟨v', st1', ws, st2, h0, h1, h2⟩
      cases h0
      unfold chainVals at h2
      cases hg : groupVals file ws v st2 with
      | error e => rw [EM.bind_err hg] at h2; cases h2
      | ok z =>
        obtain ⟨⟨p, sums⟩, st3⟩ := z
        rw [EM.bind_ok hg] at h2
        have hg2 : st3 = st2 ∧ ∀ s, groupVals file ws v s = .ok ((p, sums), s) := groupVals_pure hg
        obtain ⟨rfl, hg2⟩ := hg2
        have := (evalChain_split r v p sums st1 _).2 ⟨ws, h1, hg2⟩
        rw [EM.bind_ok this]
        exact h2

/-- The only errors of operations on given values. -/
def OpError (file : Option Str) (e : SemErr) : Prop :=
  (∃ op t1 t2, e = .sem file (.binary op t1 t2)) ∨ e = .sem file .divisionByZero

theorem applyBin_error {op : BinOp} {a b : Value} {st : ESt} {e : SemErr} (h : applyBin file op a b st = .error e) :
    OpError file e := by
  unfold applyBin at h
  generalize binSem op a b = r at h
  cases r with
  | val x => cases h
  | newArr t vs => cases h
  | bad t1 t2 => cases h; exact .inl ⟨op, t1, t2, rfl⟩
  | divisionByZero => cases h; exact .inr rfl

theorem sumLeft_error : ∀ {r : List (BinOp × Value)} {v : Value} {st : ESt} {e : SemErr},
    sumLeft file v r st = .error e → OpError file e
  | [], v, st, e, h => by cases h
  | (op, w) :: r, v, st, e, h => by
    simp only [sumLeft] at h
    cases hb : applyBin file op v w st with
    | error e' => rw [EM.bind_err hb] at h; cases h; exact applyBin_error hb
    | ok z => obtain ⟨a, st2⟩ := z; rw [EM.bind_ok hb] at h; exact sumLeft_error h

theorem groupVals_error : ∀ {r : List (BinOp × Value)} {v : Value} {st : ESt} {e : SemErr},
    groupVals file r v st = .error e → OpError file e
  | [], v, st, e, h => by cases h
  | (op, w) :: r, v, st, e, h => by
    simp only [groupVals] at h
    by_cases hp : op.tight = true
    · rw [if_pos hp] at h
      cases hb : applyBin file op v w st with
      | error e' => rw [EM.bind_err hb] at h; cases h; exact applyBin_error hb
      | ok z => obtain ⟨a, st2⟩ := z; rw [EM.bind_ok hb] at h; exact groupVals_error h
    · rw [if_neg hp] at h
      cases hb : groupVals file r w st with
      | error e' => rw [EM.bind_err hb] at h; cases h; exact groupVals_error hb
      | ok z => obtain ⟨⟨a, b⟩, st2⟩ := z; rw [EM.bind_ok hb] at h; cases h

theorem chainVals_error {r : List (BinOp × Value)} {v : Value} {st : ESt} {e : SemErr}
    (h : chainVals file v r st = .error e) : OpError file e := by
  unfold chainVals at h
  cases hb : groupVals file r v st with
  | error e' => rw [EM.bind_err hb] at h; cases h; exact groupVals_error hb
  | ok z => obtain ⟨⟨a, b⟩, st2⟩ := z; rw [EM.bind_ok hb] at h; exact sumLeft_error h

end

end Over
