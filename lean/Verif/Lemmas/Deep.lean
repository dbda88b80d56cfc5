import Verif.Lemmas.Reorder3
import Verif.Lemmas.Project
import Verif.Spec.ReorderDeep

/-! # Values up to ids and the order of fields -/

namespace Over

/-- Values without the order of fields. -/
inductive NV where
  | null
  | bool (b : Bool)
  | int (i : Int)
  | frac (q : Rat)
  | str (s : Str)
  | arr (id : Nat) (t : Ty) (vs : List NV)
  | tup (id : Nat) (ts : List Ty) (vs : List NV)
  | obj (id : Nat) (fields : Str → Option NV) (parent : Option NV)

mutual
/-- A value without the order of fields, with other ids. -/
def Value.nrm (f : Nat → Nat) : Value → NV
  | .null => .null
  | .bool b => .bool b
  | .int i => .int i
  | .frac q => .frac q
  | .str s => .str s
  | .arr i t vs => .arr (f i) t (Value.nrmL f vs)
  | .tup i ts vs => .tup (f i) ts (Value.nrmL f vs)
  | .obj o => o.nrm f
termination_by structural v => v
/-- … several values. -/
def Value.nrmL (f : Nat → Nat) : List Value → List NV
  | [] => []
  | v :: vs => v.nrm f :: Value.nrmL f vs
termination_by structural v => v
/-- … fields. -/
def Pair.nrmL (f : Nat → Nat) : List Pair → Str → Option NV
  | [], _ => none
  | .mk n v :: ps, x => if n = x then some (v.nrm f) else Pair.nrmL f ps x
termination_by structural v => v
/-- … a parent. -/
def Obj.nrmP (f : Nat → Nat) : Option Obj → Option NV
  | none => none
  | some o => some (o.nrm f)
termination_by structural v => v
/-- … an object. -/
def Obj.nrm (f : Nat → Nat) : Obj → NV
  | .mk i ps par => .obj (f i) (Pair.nrmL f ps) (Obj.nrmP f par)
termination_by structural v => v
end

theorem nrmL_fieldIn (f : Nat → Nat) (ps : List Pair) (x : Str) : Pair.nrmL f ps x = (fieldIn ps x).map (Value.nrm f) := by
  induction ps with
  | nil => rfl
  | cons p ps ih =>
    obtain ⟨n, v⟩ := p
    simp only [Pair.nrmL, fieldIn, List.find?_cons, Pair.field]
    by_cases h : n = x
    · simp [h, Pair.value]
    · simp only [h, if_false, beq_eq_false_iff_ne.2 h]; exact ih

theorem fieldIn_append (ps qs : List Pair) (x : Str) : fieldIn (ps ++ qs) x = (fieldIn ps x).or (fieldIn qs x) := by
  unfold fieldIn
  rw [List.find?_append]
  cases ps.find? (fun p => p.field == x) <;> simp

theorem fieldIn_none {ps : List Pair} {x : Str} : fieldIn ps x = none ↔ x ∉ ps.map Pair.field := by
  unfold fieldIn
  rw [Option.map_eq_none_iff, find_none_iff]

mutual
theorem nrm_mapIds (f g : Nat → Nat) : ∀ v : Value, (v.mapIds g).nrm f = v.nrm (f ∘ g)
  | .null => rfl
  | .bool _ => rfl
  | .int _ => rfl
  | .frac _ => rfl
  | .str _ => rfl
  | .arr i t vs => by simp only [Value.mapIds, Value.nrm, nrmL_mapIds f g vs, Function.comp]
  | .tup i t vs => by simp only [Value.mapIds, Value.nrm, nrmL_mapIds f g vs, Function.comp]
  | .obj o => by simp only [Value.mapIds, Value.nrm, nrmObj_mapIds f g o]
termination_by structural v => v
theorem nrmL_mapIds (f g : Nat → Nat) : ∀ v : List Value, Value.nrmL f (Value.mapIdsL g v) = Value.nrmL (f ∘ g) v
  | [] => rfl
  | v :: r => by simp only [Value.mapIdsL, Value.nrmL, nrm_mapIds f g v, nrmL_mapIds f g r]
termination_by structural v => v
theorem nrmPairs_mapIds (f g : Nat → Nat) : ∀ v : List Pair, Pair.nrmL f (Pair.mapIdsL g v) = Pair.nrmL (f ∘ g) v
  | [] => rfl
  | .mk n v :: r => by funext x; simp only [Pair.mapIdsL, Pair.nrmL, nrm_mapIds f g v, nrmPairs_mapIds f g r]
termination_by structural v => v
theorem nrmP_mapIds (f g : Nat → Nat) : ∀ v : Option Obj, Obj.nrmP f (Obj.mapIdsP g v) = Obj.nrmP (f ∘ g) v
  | none => rfl
  | some o => by simp only [Obj.mapIdsP, Obj.nrmP, nrmObj_mapIds f g o]
termination_by structural v => v
theorem nrmObj_mapIds (f g : Nat → Nat) : ∀ v : Obj, (v.mapIds g).nrm f = v.nrm (f ∘ g)
  | .mk i ps par => by simp only [Obj.mapIds, Obj.nrm, nrmPairs_mapIds f g ps, nrmP_mapIds f g par, Function.comp]
termination_by structural v => v
end

namespace Deep

section
variable (S : IncKind → Nat)

/-- The same value but for ids and the order of fields. -/
def Like (v v' : Value) : Prop := v.nrm (mask S) = v'.nrm (mask S)
/-- … values. -/
def LikeL (v v' : List Value) : Prop := Value.nrmL (mask S) v = Value.nrmL (mask S) v'
/-- … fields. -/
def LikeP (v v' : List Pair) : Prop := Pair.nrmL (mask S) v = Pair.nrmL (mask S) v'
/-- … parents. -/
def LikeO (v v' : Option Obj) : Prop := Obj.nrmP (mask S) v = Obj.nrmP (mask S) v'
/-- … objects. -/
def LikeObj (v v' : Obj) : Prop := v.nrm (mask S) = v'.nrm (mask S)

/-- … if there. -/
def LikeGet (x y : Option Value) : Prop := x.map (Value.nrm (mask S)) = y.map (Value.nrm (mask S))

/-- The states of both runs. -/
structure RelSt (st st' : ESt) : Prop where
  globals : ∀ x, LikeGet S (StrMap.get st.globals x) (StrMap.get st'.globals x)
  cache : ∀ x, LikeGet S (StrMap.get st.cache x) (StrMap.get st'.cache x)
  warm : Warm S st.rt
  warm' : Warm S st'.rt

/-- If `m` succeeds, so does `m'`, with the same result. -/
def Sim {α β : Type} (Q : α → β → Prop) (m : EM α) (m' : EM β) : Prop :=
  ∀ st st' a st1, RelSt S st st' → m st = .ok (a, st1) → ∃ a' st1', m' st' = .ok (a', st1') ∧ Q a a' ∧ RelSt S st1 st1'

end

section
variable {S : IncKind → Nat}

/-- Ids that are masked again. -/
theorem like_of {v v' : Value} (h : Over.Like S v v') : Like S v v' := by
  have h1 := nrm_mapIds id (mask S) v
  rw [show v.mapIds (mask S) = _ from h, nrm_mapIds] at h1
  exact h1.symm

theorem likeL_of {v v' : List Value} (h : Over.LikeL S v v') : LikeL S v v' := by
  have h1 := nrmL_mapIds id (mask S) v
  rw [show Value.mapIdsL (mask S) v = _ from h, nrmL_mapIds] at h1
  exact h1.symm

theorem likeO_of {v v' : Option Obj} (h : Over.LikeO S v v') : LikeO S v v' := by
  have h1 := nrmP_mapIds id (mask S) v
  rw [show Obj.mapIdsP (mask S) v = _ from h, nrmP_mapIds] at h1
  exact h1.symm

theorem likeGet_of {v v' : Option Value} (h : Over.LikeGet S v v') : LikeGet S v v' := by
  rcases h with ⟨rfl, rfl⟩ | ⟨a, b, rfl, rfl, h⟩
  · rfl
  · exact congrArg some (like_of h)

theorem likeP_iff {ps ps' : List Pair} : LikeP S ps ps' ↔ ∀ x, LikeGet S (fieldIn ps x) (fieldIn ps' x) := by
  unfold LikeP LikeGet
  rw [funext_iff]
  simp only [nrmL_fieldIn]

theorem likeP_of {ps ps' : List Pair} (h : AgreeOff S (fun _ => False) ps ps') : LikeP S ps ps' :=
  likeP_iff.2 fun x => likeGet_of (h x id)

theorem relSt_of {st st' : ESt} (h : Over.RelSt S (fun _ => False) st st') : RelSt S st st' :=
  ⟨fun x => likeGet_of (h.globals x id), fun x => likeGet_of (h.cache x), h.warm, h.warm'⟩

theorem LikeGet.cases {x y : Option Value} (h : LikeGet S x y) : (x = none ∧ y = none) ∨ ∃ v v', x = some v ∧ y = some v' ∧ Like S v v' := by
  cases x <;> cases y <;> simp only [LikeGet, Option.map_none, Option.map_some, reduceCtorEq, Option.some.injEq] at h
  · exact .inl ⟨rfl, rfl⟩
  · exact .inr ⟨_, _, rfl, rfl, h⟩

theorem RelSt.refl {st : ESt} (w : Warm S st.rt) : RelSt S st st := ⟨fun _ => rfl, fun _ => rfl, w, w⟩

theorem RelSt.trans {a b c : ESt} (h : RelSt S a b) (h' : RelSt S b c) : RelSt S a c :=
  ⟨fun x => (h.globals x).trans (h'.globals x), fun x => (h.cache x).trans (h'.cache x), h.warm, h'.warm'⟩

theorem LikeP.refl (ps : List Pair) : LikeP S ps ps := rfl

theorem LikeP.snoc {ps ps' : List Pair} (h : LikeP S ps ps') {v v' : Value} (hv : Like S v v') (x : Str) :
    LikeP S (ps ++ [.mk x v]) (ps' ++ [.mk x v']) := by
  rw [likeP_iff] at *
  intro y
  have h1 : LikeGet S (fieldIn [.mk x v] y) (fieldIn [.mk x v'] y) := by
    have := congrFun (show Pair.nrmL (mask S) [.mk x v] = Pair.nrmL (mask S) [.mk x v'] by
      funext y; simp only [Pair.nrmL, show v.nrm _ = _ from hv]) y
    rw [nrmL_fieldIn, nrmL_fieldIn] at this
    exact this
  rw [fieldIn_append, fieldIn_append]
  rcases (h y).cases with ⟨h2, h3⟩ | ⟨a, b, h2, h3, h4⟩
  · rw [h2, h3]; exact h1
  · rw [h2, h3]; exact congrArg some h4

theorem LikeP.mem {ps ps' : List Pair} (h : LikeP S ps ps') (x : Str) : x ∈ ps.map Pair.field ↔ x ∈ ps'.map Pair.field := by
  rw [← not_iff_not, ← fieldIn_none, ← fieldIn_none]
  rcases (likeP_iff.1 h x).cases with ⟨h2, h3⟩ | ⟨a, b, h2, h3, h4⟩
  · rw [h2, h3]
  · rw [h2, h3]; simp

theorem LikeO.isSome {o o' : Option Obj} (h : LikeO S o o') : o.isSome = o'.isSome := by
  cases o <;> cases o' <;> simp [LikeO, Obj.nrmP] at h ⊢

theorem LikeObj.pairs {o o' : Obj} (h : LikeObj S o o') : LikeP S o.pairs o'.pairs := by
  cases o; cases o'
  simp only [LikeObj, Obj.nrm, NV.obj.injEq] at h
  exact h.2.1

theorem LikeObj.id {o o' : Obj} (h : LikeObj S o o') (k : IncKind) : o.id = S k ↔ o'.id = S k := by
  cases o; cases o'
  simp only [LikeObj, Obj.nrm, NV.obj.injEq] at h
  exact mask_kw h.1 k

/-- Like values have the same form. -/
inductive LikeForm (S : IncKind → Nat) : Value → Value → Prop
  | null : LikeForm S .null .null
  | bool (b : Bool) : LikeForm S (.bool b) (.bool b)
  | int (i : Int) : LikeForm S (.int i) (.int i)
  | frac (q : Rat) : LikeForm S (.frac q) (.frac q)
  | str (s : Str) : LikeForm S (.str s) (.str s)
  | arr (i i' : Nat) (t : Ty) (vs vs' : List Value) : LikeL S vs vs' → LikeForm S (.arr i t vs) (.arr i' t vs')
  | tup (i i' : Nat) (t : List Ty) (vs vs' : List Value) : LikeL S vs vs' → LikeForm S (.tup i t vs) (.tup i' t vs')
  | obj (o o' : Obj) : LikeObj S o o' → LikeForm S (.obj o) (.obj o')

theorem nrm_isObj (f : Nat → Nat) (o : Obj) : ∃ i g p, o.nrm f = .obj i g p := by
  cases o; exact ⟨_, _, _, rfl⟩

theorem Like.form {v v' : Value} (h : Like S v v') : LikeForm S v v' := by
  have hobj := nrm_isObj (mask S)
  cases v <;> cases v' <;> simp only [Like, Value.nrm, reduceCtorEq, NV.bool.injEq, NV.int.injEq, NV.frac.injEq,
    NV.str.injEq, NV.arr.injEq, NV.tup.injEq] at h <;> try subst h
  all_goals first
    | (obtain ⟨h1, rfl, h2⟩ := h; constructor; exact h2)
    | (constructor; exact h)
    | constructor
    | skip
  all_goals (rename_i o; first
    | (obtain ⟨i, g, p, e⟩ := hobj o; rw [e] at h; cases h)
    | (rename_i o'; obtain ⟨i, g, p, e⟩ := hobj o'; rw [e] at h; cases h)
    | (rename_i o' _ _; obtain ⟨i, g, p, e⟩ := hobj o'; rw [e] at h; cases h))

theorem Like.getType {v v' : Value} (h : Like S v v') : v.getType = v'.getType := by
  cases h.form <;> rfl

theorem LikeL.nil : LikeL S [] [] := rfl
theorem LikeL.cons {v v' : Value} {r r' : List Value} (h : Like S v v') (h' : LikeL S r r') : LikeL S (v :: r) (v' :: r') := by
  unfold LikeL Value.nrmL; rw [h, h']

theorem LikeL.inv {v v' : List Value} (h : LikeL S v v') : (v = [] ∧ v' = []) ∨ ∃ a r a' r', v = a :: r ∧ v' = a' :: r' ∧ Like S a a' ∧ LikeL S r r' := by
  cases v <;> cases v' <;> simp only [LikeL, Value.nrmL, reduceCtorEq, List.cons.injEq] at h
  · exact .inl ⟨rfl, rfl⟩
  · exact .inr ⟨_, _, _, _, rfl, rfl, h⟩

theorem LikeL.getType {v v' : List Value} (h : LikeL S v v') : v.map Value.getType = v'.map Value.getType := by
  induction v generalizing v' with
  | nil =>
    rcases h.inv with ⟨-, rfl⟩ | ⟨_, _, _, _, he, -⟩
    · rfl
    · cases he
  | cons a r ih =>
    rcases h.inv with ⟨he, -⟩ | ⟨_, _, _, _, he, rfl, h1, h2⟩
    · cases he
    · cases he; rw [List.map_cons, List.map_cons, h1.getType, ih h2]

theorem LikeL.get {v v' : List Value} (h : LikeL S v v') (n : Nat) :
    (v[n]? = none ∧ v'[n]? = none) ∨ ∃ a a', v[n]? = some a ∧ v'[n]? = some a' ∧ Like S a a' := by
  induction v generalizing v' n with
  | nil =>
    rcases h.inv with ⟨-, rfl⟩ | ⟨_, _, _, _, he, -⟩
    · exact .inl ⟨rfl, rfl⟩
    · cases he
  | cons a r ih =>
    rcases h.inv with ⟨he, -⟩ | ⟨_, _, _, _, he, rfl, h1, h2⟩
    · cases he
    · cases he
      cases n with
      | zero => exact .inr ⟨_, _, rfl, rfl, h1⟩
      | succ n => simpa using ih h2 n

theorem LikeL.append {a a' b b' : List Value} (h : LikeL S a a') (h' : LikeL S b b') : LikeL S (a ++ b) (a' ++ b') := by
  induction a generalizing a' with
  | nil =>
    rcases h.inv with ⟨-, rfl⟩ | ⟨_, _, _, _, he, -⟩
    · exact h'
    · cases he
  | cons x r ih =>
    rcases h.inv with ⟨he, -⟩ | ⟨_, _, _, _, he, rfl, h1, h2⟩
    · cases he
    · cases he; exact .cons h1 (ih h2)

/-! ## Actions -/

section
variable {α α' β β' γ : Type}

theorem Sim.bind {Q : α → α' → Prop} {R : β → β' → Prop} {m : EM α} {m' : EM α'} {k : α → EM β} {k' : α' → EM β'}
    (h : Sim S Q m m') (hk : ∀ a a', Q a a' → Sim S R (k a) (k' a')) : Sim S R (m >>= k) (m' >>= k') := by
  intro st st' b st1 hr e
  cases em : m st with
  | error _ => rw [EM.bind_err em] at e; cases e
  | ok x =>
    obtain ⟨a, stm⟩ := x
    rw [EM.bind_ok em] at e
    obtain ⟨a', stm', h1, h2, h3⟩ := h _ _ _ _ hr em
    obtain ⟨b', st1', h4, h5, h6⟩ := hk a a' h2 _ _ _ _ h3 e
    exact ⟨b', st1', by rw [EM.bind_ok h1, h4], h5, h6⟩

theorem Sim.pure {Q : α → α' → Prop} {a : α} {a' : α'} (h : Q a a') : Sim S Q (pure a) (pure a') := by
  intro st st' b st1 hr e
  cases e
  exact ⟨a', st', rfl, h, hr⟩

theorem Sim.fail {Q : α → α' → Prop} {m' : EM α'} (file : Option Str) (k : SemKind) : Sim S Q (EM.fail file k) m' := by
  intro st st' b st1 hr e; cases e

theorem Sim.error {Q : α → α' → Prop} {m' : EM α'} (e : SemErr) : Sim S Q (fun _ => .error e) m' := by
  intro st st' b st1 hr e; cases e

theorem Sim.ite {Q : α → α' → Prop} {c c' : Prop} [Decidable c] [Decidable c'] {a b : EM α} {a' b' : EM α'} (hc : c ↔ c')
    (h1 : Sim S Q a a') (h2 : Sim S Q b b') : Sim S Q (if c then a else b) (if c' then a' else b') := by
  by_cases h : c
  · rw [if_pos h, if_pos (hc.1 h)]; exact h1
  · rw [if_neg h, if_neg (fun x => h (hc.2 x))]; exact h2

theorem Sim.fresh : Sim S (fun i j => mask S i = 0 ∧ mask S j = 0) EM.fresh EM.fresh := by
  intro st st' b st1 hr e
  cases e
  exact ⟨_, _, rfl, ⟨hr.warm.fresh, hr.warm'.fresh⟩, hr.globals, hr.cache, hr.warm.next, hr.warm'.next⟩

theorem Sim.keywordId (k : IncKind) : Sim S (fun i j => i = S k ∧ j = S k) (EM.keywordId k) (EM.keywordId k) := by
  intro st st' b st1 hr e
  rw [keywordId_eq, hr.warm.kw] at e
  cases e
  exact ⟨S k, st', by rw [keywordId_eq, hr.warm'.kw], ⟨rfl, rfl⟩, hr⟩

theorem Sim.depthCheck (file : Option Str) (d : Nat) : Sim S (fun _ _ => True) (depthCheck file d) (depthCheck file d) :=
  .ite Iff.rfl (.fail _ _) (.pure trivial)

theorem Sim.trans {Q : α → α' → Prop} {R : α' → γ → Prop} {m : EM α} {m' : EM α'} {m'' : EM γ} (h : Sim S Q m m') (h' : Sim S R m' m'') :
    Sim S (fun a c => ∃ b, Q a b ∧ R b c) m m'' := by
  intro st st' a st1 hr e
  obtain ⟨a', s', h1, h2, h3⟩ := h st st' a st1 hr e
  obtain ⟨a'', s'', h4, h5, h6⟩ := h' st' st' a' s' (RelSt.refl hr.warm') h1
  exact ⟨a'', s'', h4, ⟨a', h2, h5⟩, h3.trans h6⟩

theorem Sim.mono {Q R : α → β → Prop} {m : EM α} {m' : EM β} (h : Sim S Q m m') (hq : ∀ a b, Q a b → R a b) : Sim S R m m' := by
  intro st st' a st1 hr e
  obtain ⟨a', s', h1, h2, h3⟩ := h st st' a st1 hr e
  exact ⟨a', s', h1, hq _ _ h2, h3⟩

end

variable {file : Option Str}

theorem applyBin_sim (op : BinOp) {a b a' b' : Value} (ha : Like S a a') (hb : Like S b b') :
    Sim S (Like S) (applyBin file op a b) (applyBin file op a' b') := by
  have same : ∀ a b : Value, (∀ i t vs, a ≠ .arr i t vs) ∨ (∀ i t vs, b ≠ .arr i t vs) → Sim S (Like S) (applyBin file op a b) (applyBin file op a b) := by
    intro a b _
    unfold applyBin
    cases binSem op a b with
    | val v => exact .pure rfl
    | newArr t vs => exact .bind .fresh fun i j hij => .pure (by show Value.nrm _ _ = Value.nrm _ _; simp only [Value.nrm, hij.1, hij.2])
    | bad _ _ => exact .fail _ _
    | divisionByZero => exact .fail _ _
  cases ha.form with
  | arr i i' t vs vs' hvs =>
    cases hb.form with
    | arr j j' u ws ws' hws =>
      unfold applyBin
      cases op <;> simp only [binSem] <;> try exact .fail _ _
      cases Ty.mostSpecific t u with
      | none => exact .fail _ _
      | some x => exact .bind .fresh fun i j hij => .pure (by
          show Value.nrm _ _ = Value.nrm _ _
          simp only [Value.nrm, hij.1, hij.2, show Value.nrmL _ (vs ++ ws) = _ from hvs.append hws])
    | _ => cases op <;> exact .fail _ _
  | tup _ _ _ _ _ _ => cases hb.form <;> cases op <;> exact .fail _ _
  | obj _ _ _ => cases hb.form <;> cases op <;> exact .fail _ _
  | null => cases hb.form <;> cases op <;> exact .fail _ _
  | bool _ => cases hb.form <;> cases op <;> exact .fail _ _
  | int _ => cases hb.form <;> first | exact same _ _ (.inl (by simp)) | (cases op <;> exact .fail _ _)
  | frac _ => cases hb.form <;> first | exact same _ _ (.inl (by simp)) | (cases op <;> exact .fail _ _)
  | str _ => cases hb.form <;> first | exact same _ _ (.inl (by simp)) | (cases op <;> exact .fail _ _)

theorem applyUn_sim (op : UnOp) {a a' : Value} (ha : Like S a a') : Sim S (Like S) (applyUn file op a) (applyUn file op a') := by
  cases ha.form <;> cases op <;> simp only [applyUn] <;> first | exact .fail _ _ | exact .pure rfl

/-- Operators with operands that correspond. -/
inductive LikeOps (S : IncKind → Nat) : List (BinOp × Value) → List (BinOp × Value) → Prop
  | nil : LikeOps S [] []
  | cons {op : BinOp} {v v' : Value} {r r' : List (BinOp × Value)} : Like S v v' → LikeOps S r r' → LikeOps S ((op, v) :: r) ((op, v') :: r')

/-- The value of a chain so far. -/
abbrev LikeChain (S : IncKind → Nat) (x y : Value × List (BinOp × Value)) : Prop := Like S x.1 y.1 ∧ LikeOps S x.2 y.2

theorem sumLeft_sim : ∀ {l l' : List (BinOp × Value)}, LikeOps S l l' → ∀ {v v' : Value}, Like S v v' →
    Sim S (Like S) (sumLeft file v l) (sumLeft file v' l')
  | _, _, .nil, _, _, h => .pure h
  | _, _, .cons h1 h2, _, _, h => .bind (applyBin_sim _ h h1) fun _ _ h => sumLeft_sim h2 h

theorem evalIndex_sim (oob : Nat → OverError) {vs vs' : List Value} {i i' : Value} (h : LikeL S vs vs') (hi : Like S i i') :
    Sim S (Like S) (evalIndex file oob vs i) (evalIndex file oob vs' i') := by
  cases hi.form <;> simp only [evalIndex] <;> try exact .fail _ _
  split
  · rename_i i _
    rcases h.get i.toNat with ⟨h1, h2⟩ | ⟨a, a', h1, h2, h3⟩
    · rw [h1, h2]; exact .fail _ _
    · rw [h1, h2]; exact .pure h3
  · exact .fail _ _

theorem evalKeyword_sim {v v' : Value} (h : Like S v v') : Sim S (fun a b => a = b) (evalKeyword file v) (evalKeyword file v') := by
  cases h.form <;> simp only [evalKeyword] <;> try first | exact .fail _ _ | exact .pure rfl
  rename_i o o' ho
  have key : ∀ k, ∀ i i' : Nat, i = S k ∧ i' = S k → (o.id = i ↔ o'.id = i') := by
    rintro k i i' ⟨rfl, rfl⟩; exact ho.id k
  refine .bind (.keywordId _) fun i i' hi => .ite (key _ _ _ hi) (.pure rfl) (.bind (.keywordId _) fun i i' hi => .ite (key _ _ _ hi) (.pure rfl)
    (.bind (.keywordId _) fun i i' hi => .ite (key _ _ _ hi) (.pure rfl) (.bind (.keywordId _) fun i i' hi => .ite (key _ _ _ hi) (.pure rfl) (.fail _ _))))

theorem keyword_sim (k : IncKind) : Sim S (Like S) (do let i ← EM.keywordId k; pure (.obj (.mk i [] none)) : EM Value)
    (do let i ← EM.keywordId k; pure (.obj (.mk i [] none)) : EM Value) :=
  .bind (.keywordId _) fun i j h => .pure (by rw [h.1, h.2]; exact rfl)

theorem evalName_sim {ps ps' : List Pair} {x : Str} (h : LikeP S ps ps') : Sim S (Like S) (evalName file ps x) (evalName file ps' x) := by
  unfold evalName
  refine .ite Iff.rfl (.pure rfl) (.ite Iff.rfl (.pure rfl) (.ite Iff.rfl (.pure rfl) (.ite Iff.rfl (keyword_sim _)
    (.ite Iff.rfl (keyword_sim _) (.ite Iff.rfl (keyword_sim _) (.ite Iff.rfl (keyword_sim _) (.ite Iff.rfl (.fail _ _) (.ite Iff.rfl ?_ ?_))))))))
  · intro st st' a st1 hr e
    unfold evalGlobal at *
    rcases (hr.globals x).cases with ⟨h1, h2⟩ | ⟨v, v', h1, h2, h3⟩
    · rw [h1] at e; cases e
    · rw [h1] at e; rw [h2]; cases e; exact ⟨v', st', rfl, h3, hr⟩
  · rcases (likeP_iff.1 h x).cases with ⟨h1, h2⟩ | ⟨v, v', h1, h2, h3⟩
    · unfold fieldIn at h1
      rw [Option.map_eq_none_iff] at h1
      rw [h1]; exact .fail _ _
    · unfold fieldIn at h1 h2
      obtain ⟨p, h4, rfl⟩ := Option.map_eq_some_iff.1 h1
      obtain ⟨p', h5, rfl⟩ := Option.map_eq_some_iff.1 h2
      rw [h4, h5]; exact .pure h3

theorem LikeGet.insert {m m' : StrMap Value} {v v' : Value} (hv : Like S v v') (k x : Str) (h : LikeGet S (StrMap.get m x) (StrMap.get m' x)) :
    LikeGet S (StrMap.get (StrMap.insert m k v) x) (StrMap.get (StrMap.insert m' k v') x) := by
  by_cases e : x = k
  · subst e
    rw [StrMap.get_insert_self, StrMap.get_insert_self]
    exact congrArg some hv
  · rw [StrMap.get_insert_ne _ _ e, StrMap.get_insert_ne _ _ e]; exact h

theorem setGlobal_sim (g : Str) {v v' : Value} (hv : Like S v v') : Sim S (fun _ _ => True) (setGlobal g v) (setGlobal g v') := by
  intro st st' a st1 hr e
  cases e
  exact ⟨(), _, rfl, trivial, fun x => LikeGet.insert hv _ _ (hr.globals x), hr.cache, hr.warm, hr.warm'⟩

theorem checkNew_sim {ps ps' : List Pair} {par par' : Option Obj} (hp : LikeP S ps ps') (hr : LikeO S par par') (tg : Target) :
    Sim S (fun _ _ => True) (checkNew file ps par tg) (checkNew file ps' par' tg) := by
  cases tg with
  | field f => exact .ite (hp.mem f) (.fail _ _) (.pure trivial)
  | parent => exact .ite (by rw [hr.isSome]) (.fail _ _) (.pure trivial)
  | global g =>
    intro st st' a st1 hst e
    simp only [checkNew] at *
    rcases (hst.globals g).cases with ⟨h1, h2⟩ | ⟨v, v', h1, h2, -⟩
    · rw [h1] at e; rw [h2]; cases e; exact ⟨(), st', rfl, trivial, hst⟩
    · rw [h1] at e; cases e

/-- The results of definitions. -/
abbrev LikeFields (S : IncKind → Nat) (x y : List Pair × Option Obj) : Prop := LikeP S x.1 y.1 ∧ LikeO S x.2 y.2

theorem ownGlobals_sim {m m' : EM Value} (h : Sim S (Like S) m m') : Sim S (Like S) (EM.ownGlobals m) (EM.ownGlobals m') := by
  intro st st' a st1 hr e
  unfold EM.ownGlobals at *
  cases em : m { st with globals := [] } with
  | error _ => rw [em] at e; cases e
  | ok x =>
    obtain ⟨b, s⟩ := x
    rw [em] at e
    cases e
    obtain ⟨a', s', h1, h2, h3⟩ := h { st with globals := [] } { st' with globals := [] } _ _ ⟨fun _ => rfl, hr.cache, hr.warm, hr.warm'⟩ em
    rw [h1]
    exact ⟨a', _, rfl, h2, hr.globals, h3.cache, h3.warm, h3.warm'⟩

end

end Deep

end Over
