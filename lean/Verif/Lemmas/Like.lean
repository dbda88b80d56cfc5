import Verif.Lemmas.Include
import Verif.Lemmas.TwoRuns
import Verif.Spec.Rename

/-! # Values that differ only in the ids of containers other than keyword objects -/

namespace Over

/-- Forget all ids but those of the four keyword objects. -/
def mask (S : IncKind → Nat) (i : Nat) : Nat := if i = S .obj ∨ i = S .str ∨ i = S .arr ∨ i = S .tup then i + 1 else 0

theorem mask_kw {S : IncKind → Nat} {i j : Nat} (h : mask S i = mask S j) (k : IncKind) : i = S k ↔ j = S k := by
  unfold mask at h
  split at h
  · split at h
    · have : i = j := by omega
      rw [this]
    · omega
  · next h1 =>
    split at h
    · omega
    · next h2 => constructor <;> intro e <;> subst e <;> cases k <;> simp_all

theorem mask_other {S : IncKind → Nat} {i : Nat} (h : ∀ k, i ≠ S k) : mask S i = 0 := by
  simp [mask, h]

section
variable (S : IncKind → Nat)

/-- The same value but for ids. -/
def Like (v v' : Value) : Prop := v.mapIds (mask S) = v'.mapIds (mask S)
/-- … values. -/
def LikeL (v v' : List Value) : Prop := Value.mapIdsL (mask S) v = Value.mapIdsL (mask S) v'
/-- … fields. -/
def LikeP (v v' : List Pair) : Prop := Pair.mapIdsL (mask S) v = Pair.mapIdsL (mask S) v'
/-- … parents. -/
def LikeO (v v' : Option Obj) : Prop := Obj.mapIdsP (mask S) v = Obj.mapIdsP (mask S) v'
/-- … objects. -/
def LikeObj (v v' : Obj) : Prop := v.mapIds (mask S) = v'.mapIds (mask S)

end

section
variable {S : IncKind → Nat}

theorem Like.refl (v : Value) : Like S v v := rfl
theorem Like.symm {v w : Value} (h : Like S v w) : Like S w v := Eq.symm h
theorem Like.trans {v w u : Value} (h : Like S v w) (h' : Like S w u) : Like S v u := Eq.trans h h'
theorem LikeL.nil : LikeL S [] [] := rfl
theorem LikeL.cons {v v' : Value} {r r' : List Value} (h : Like S v v') (h' : LikeL S r r') : LikeL S (v :: r) (v' :: r') := by
  unfold LikeL Value.mapIdsL; rw [h, h']
theorem LikeP.refl (v : List Pair) : LikeP S v v := rfl

theorem Like.getType {v v' : Value} (h : Like S v v') : v.getType = v'.getType := by
  have h1 : ∀ v : Value, (v.mapIds (mask S)).getType = v.getType := by intro v; cases v <;> rfl
  rw [← h1 v, h, h1]

theorem LikeL.getType {v v' : List Value} (h : LikeL S v v') : v.map Value.getType = v'.map Value.getType := by
  induction v generalizing v' with
  | nil => cases v' with
    | nil => rfl
    | cons _ _ => simp [LikeL, Value.mapIdsL] at h
  | cons a r ih => cases v' with
    | nil => simp [LikeL, Value.mapIdsL] at h
    | cons b r' =>
      simp only [LikeL, Value.mapIdsL, List.cons.injEq] at h
      rw [List.map_cons, List.map_cons, Like.getType (S := S) h.1, ih h.2]

theorem LikeL.get {v v' : List Value} (h : LikeL S v v') (n : Nat) :
    (v[n]? = none ∧ v'[n]? = none) ∨ ∃ a a', v[n]? = some a ∧ v'[n]? = some a' ∧ Like S a a' := by
  induction v generalizing v' n with
  | nil => cases v' with
    | nil => exact .inl ⟨rfl, rfl⟩
    | cons _ _ => simp [LikeL, Value.mapIdsL] at h
  | cons a r ih => cases v' with
    | nil => simp [LikeL, Value.mapIdsL] at h
    | cons b r' =>
      simp only [LikeL, Value.mapIdsL, List.cons.injEq] at h
      cases n with
      | zero => exact .inr ⟨a, b, rfl, rfl, h.1⟩
      | succ n => simpa using ih h.2 n

theorem Value.mapIdsL_append (f : Nat → Nat) (a b : List Value) :
    Value.mapIdsL f (a ++ b) = Value.mapIdsL f a ++ Value.mapIdsL f b := by
  induction a with
  | nil => rfl
  | cons x a ih => simp [Value.mapIdsL, ih]

theorem Pair.mapIdsL_append (f : Nat → Nat) (a b : List Pair) :
    Pair.mapIdsL f (a ++ b) = Pair.mapIdsL f a ++ Pair.mapIdsL f b := by
  induction a with
  | nil => rfl
  | cons x a ih => cases x; simp [Pair.mapIdsL, ih]

theorem LikeP.snoc {ps ps' : List Pair} (h : LikeP S ps ps') {v v' : Value} (hv : Like S v v') (x : Str) :
    LikeP S (ps ++ [.mk x v]) (ps' ++ [.mk x v']) := by
  unfold LikeP at *
  rw [Pair.mapIdsL_append, Pair.mapIdsL_append, h, Pair.mapIdsL, Pair.mapIdsL, hv]
  rfl

theorem LikeP.names {ps ps' : List Pair} (h : LikeP S ps ps') : ps.map Pair.field = ps'.map Pair.field := by
  rw [← Pair.mapIdsL_names (mask S) ps, show Pair.mapIdsL _ ps = _ from h, Pair.mapIdsL_names]

theorem LikeP.find {ps ps' : List Pair} (h : LikeP S ps ps') (x : Str) :
    (ps.find? (fun p => p.field == x) = none ∧ ps'.find? (fun p => p.field == x) = none) ∨
    ∃ p p', ps.find? (fun p => p.field == x) = some p ∧ ps'.find? (fun p => p.field == x) = some p' ∧ Like S p.value p'.value := by
  induction ps generalizing ps' with
  | nil => cases ps' with
    | nil => exact .inl ⟨rfl, rfl⟩
    | cons p _ => cases p; simp [LikeP, Pair.mapIdsL] at h
  | cons p r ih =>
    obtain ⟨n, v⟩ := p
    cases ps' with
    | nil => simp [LikeP, Pair.mapIdsL] at h
    | cons p' r' =>
      obtain ⟨n', v'⟩ := p'
      simp only [LikeP, Pair.mapIdsL, List.cons.injEq, Pair.mk.injEq] at h
      obtain ⟨⟨rfl, h1⟩, h2⟩ := h
      by_cases hn : n = x
      · subst hn
        exact .inr ⟨.mk n v, .mk n v', by simp [Pair.field], by simp [Pair.field], h1⟩
      · have e : ((Pair.mk n v).field == x) = false := by simpa [Pair.field] using hn
        have e' : ((Pair.mk n v').field == x) = false := by simpa [Pair.field] using hn
        simp only [List.find?_cons, e, e']
        exact ih h2

theorem LikeO.isSome {o o' : Option Obj} (h : LikeO S o o') : o.isSome = o'.isSome := by
  cases o <;> cases o' <;> simp [LikeO, Obj.mapIdsP] at h ⊢

theorem LikeObj.pairs {o o' : Obj} (h : LikeObj S o o') : LikeP S o.pairs o'.pairs := by
  cases o; cases o'
  simp only [LikeObj, Obj.mapIds, Obj.mk.injEq] at h
  exact h.2.1

theorem LikeObj.id {o o' : Obj} (h : LikeObj S o o') (k : IncKind) : o.id = S k ↔ o'.id = S k := by
  cases o; cases o'
  simp only [LikeObj, Obj.mapIds, Obj.mk.injEq] at h
  exact mask_kw h.1 k

theorem LikeObj.data {o o' : Obj} (h : LikeObj S o o') : o.data = o'.data := by
  rw [← Obj.mapIds_data (mask S) o, show o.mapIds _ = _ from h, Obj.mapIds_data]

theorem Like.data {o o' : Value} (h : Like S o o') : o.data = o'.data := by
  rw [← Value.mapIds_data (mask S) o, show o.mapIds _ = _ from h, Value.mapIds_data]

/-- Like values have the same form. -/
inductive LikeForm (S : IncKind → Nat) : Value → Value → Prop
  | null : LikeForm S .null .null
  | bool (b : Bool) : LikeForm S (.bool b) (.bool b)
  | int (i : Int) : LikeForm S (.int i) (.int i)
  | frac (q : Rat) : LikeForm S (.frac q) (.frac q)
  | str (s : Str) : LikeForm S (.str s) (.str s)
  | arr (i i' : Nat) (t : Ty) (vs vs' : List Value) : LikeL S vs vs' → mask S i = mask S i' → LikeForm S (.arr i t vs) (.arr i' t vs')
  | tup (i i' : Nat) (t : List Ty) (vs vs' : List Value) : LikeL S vs vs' → mask S i = mask S i' → LikeForm S (.tup i t vs) (.tup i' t vs')
  | obj (o o' : Obj) : LikeObj S o o' → LikeForm S (.obj o) (.obj o')

theorem Like.form {v v' : Value} (h : Like S v v') : LikeForm S v v' := by
  cases v <;> cases v' <;> simp only [Like, Value.mapIds, reduceCtorEq, Value.bool.injEq, Value.int.injEq, Value.frac.injEq,
    Value.str.injEq, Value.arr.injEq, Value.tup.injEq, Value.obj.injEq] at h <;> try subst h
  all_goals first
    | constructor
    | (obtain ⟨h1, rfl, h2⟩ := h; constructor <;> assumption)
  exact h

/-! ## States -/

/-- All four keyword objects exist. -/
structure Warm (S : IncKind → Nat) (rt : Rt) : Prop where
  fine : rt.Fine
  kw : ∀ k, rt.keyword k = some (S k)

theorem Warm.next {rt : Rt} (h : Warm S rt) : Warm S rt.next := ⟨Rt.next_fine h.fine, fun k => Rt.next_keyword (h.kw k)⟩

theorem Warm.fresh {rt : Rt} (h : Warm S rt) : mask S rt.curId = 0 :=
  mask_other fun k e => by have := (h.fine k _ (h.kw k)).1; omega

/-- The actions correspond, and do not touch globals and files. -/
def Local (S : IncKind → Nat) {α β : Type} (Q : α → β → Prop) (m : EM α) (m' : EM β) : Prop :=
  ∀ st st', Warm S st.rt → Warm S st'.rt → (∃ e, m st = .error e ∧ m' st' = .error e) ∨
    ∃ a a' r r', m st = .ok (a, { st with rt := r }) ∧ m' st' = .ok (a', { st' with rt := r' }) ∧ Q a a' ∧ Warm S r ∧ Warm S r'

section
variable {α α' β β' : Type}

theorem Local.bind {Q : α → α' → Prop} {R : β → β' → Prop} {m : EM α} {m' : EM α'} {k : α → EM β} {k' : α' → EM β'}
    (h : Local S Q m m') (hk : ∀ a a', Q a a' → Local S R (k a) (k' a')) : Local S R (m >>= k) (m' >>= k') := by
  intro st st' w w'
  show (∃ e, EM.bind m k st = _ ∧ EM.bind m' k' st' = _) ∨ ∃ a a' r r', EM.bind m k st = _ ∧ EM.bind m' k' st' = _ ∧ _
  unfold EM.bind
  rcases h st st' w w' with ⟨e, h1, h2⟩ | ⟨a, a', r, r', h1, h2, q, w1, w2⟩
  · rw [h1, h2]; exact .inl ⟨e, rfl, rfl⟩
  · rw [h1, h2]
    exact hk a a' q { st with rt := r } { st' with rt := r' } w1 w2

theorem Local.pure {Q : α → α' → Prop} {a : α} {a' : α'} (h : Q a a') : Local S Q (pure a) (pure a') :=
  fun st st' w w' => .inr ⟨a, a', st.rt, st'.rt, rfl, rfl, h, w, w'⟩

theorem Local.fail {Q : α → α' → Prop} (file : Option Str) (k : SemKind) : Local S Q (EM.fail file k) (EM.fail file k) :=
  fun _ _ _ _ => .inl ⟨_, rfl, rfl⟩

theorem Local.ite {Q : α → α' → Prop} {c c' : Prop} [Decidable c] [Decidable c'] {a b : EM α} {a' b' : EM α'} (hc : c ↔ c')
    (h1 : Local S Q a a') (h2 : Local S Q b b') : Local S Q (if c then a else b) (if c' then a' else b') := by
  by_cases h : c
  · rw [if_pos h, if_pos (hc.1 h)]; exact h1
  · rw [if_neg h, if_neg (fun x => h (hc.2 x))]; exact h2

theorem Local.fresh : Local S (fun i j => mask S i = 0 ∧ mask S j = 0) EM.fresh EM.fresh :=
  fun st st' w w' => .inr ⟨_, _, st.rt.next, st'.rt.next, rfl, rfl, ⟨w.fresh, w'.fresh⟩, w.next, w'.next⟩

theorem Local.keywordId (k : IncKind) : Local S (fun i j => i = S k ∧ j = S k) (EM.keywordId k) (EM.keywordId k) := by
  intro st st' w w'
  refine .inr ⟨S k, S k, st.rt, st'.rt, ?_, ?_, ⟨rfl, rfl⟩, w, w'⟩
  · rw [keywordId_eq, w.kw]
  · rw [keywordId_eq, w'.kw]

end

variable {file : Option Str}

theorem binSem_mapIds (f : Nat → Nat) (op : BinOp) (a b : Value) : binSem op (a.mapIds f) (b.mapIds f) = match binSem op a b with
    | .val v => .val (v.mapIds f)
    | .newArr t vs => .newArr t (Value.mapIdsL f vs)
    | .bad t1 t2 => .bad t1 t2
    | .divisionByZero => .divisionByZero := by
  cases op <;> cases a <;> cases b <;> simp only [Value.mapIds, binSem, promotedTypes, Value.getType, divSem]
  case plus.arr.arr i s xs j t ys =>
    cases Ty.mostSpecific s t with
    | none => rfl
    | some u => simp [Value.mapIdsL_append]
  all_goals (try split) <;> rfl

theorem applyBin_local (op : BinOp) {a b a' b' : Value} (ha : Like S a a') (hb : Like S b b') :
    Local S (Like S) (applyBin file op a b) (applyBin file op a' b') := by
  have h := binSem_mapIds (mask S) op a b
  have h' := binSem_mapIds (mask S) op a' b'
  rw [ha, hb, h'] at h
  unfold applyBin
  cases e : binSem op a b <;> cases e' : binSem op a' b' <;> rw [e, e'] at h <;>
    simp only [BinRes.val.injEq, BinRes.newArr.injEq, BinRes.bad.injEq, reduceCtorEq] at h
  · exact .pure h.symm
  · obtain ⟨rfl, h⟩ := h
    exact .bind .fresh fun i j hij => .pure (by
      show Value.mapIds _ _ = Value.mapIds _ _
      simp only [Value.mapIds, h, hij.1, hij.2])
  · obtain ⟨rfl, rfl⟩ := h; exact .fail _ _
  · exact .fail _ _

theorem applyUn_local (op : UnOp) {a a' : Value} (ha : Like S a a') : Local S (Like S) (applyUn file op a) (applyUn file op a') := by
  cases ha.form <;> cases op <;> simp only [applyUn, Value.getType] <;> first | exact .fail _ _ | exact .pure (Like.refl _)

/-- Operators with operands that correspond. -/
inductive LikeOps (S : IncKind → Nat) : List (BinOp × Value) → List (BinOp × Value) → Prop
  | nil : LikeOps S [] []
  | cons {op : BinOp} {v v' : Value} {r r' : List (BinOp × Value)} : Like S v v' → LikeOps S r r' → LikeOps S ((op, v) :: r) ((op, v') :: r')

theorem sumLeft_local : ∀ {l l' : List (BinOp × Value)}, LikeOps S l l' → ∀ {v v' : Value}, Like S v v' →
    Local S (Like S) (sumLeft file v l) (sumLeft file v' l')
  | _, _, .nil, _, _, h => .pure h
  | _, _, .cons h1 h2, _, _, h => .bind (applyBin_local _ h h1) fun _ _ h => sumLeft_local h2 h

theorem evalIndex_local (oob : Nat → OverError) {vs vs' : List Value} {i i' : Value} (h : LikeL S vs vs') (hi : Like S i i') :
    Local S (Like S) (evalIndex file oob vs i) (evalIndex file oob vs' i') := by
  cases hi.form <;> simp only [evalIndex, Value.getType] <;> try exact .fail _ _
  split
  · rename_i i _
    rcases h.get i.toNat with ⟨h1, h2⟩ | ⟨a, a', h1, h2, h3⟩
    · rw [h1, h2]; exact .fail _ _
    · rw [h1, h2]; exact .pure h3
  · exact .fail _ _

theorem evalKeyword_local {v v' : Value} (h : Like S v v') : Local S (fun a b => a = b) (evalKeyword file v) (evalKeyword file v') := by
  cases h.form <;> simp only [evalKeyword, Value.getType] <;> try first | exact .fail _ _ | exact .pure rfl
  rename_i o o' ho
  have key : ∀ k, ∀ i i' : Nat, i = S k ∧ i' = S k → (o.id = i ↔ o'.id = i') := by
    rintro k i i' ⟨rfl, rfl⟩; exact ho.id k
  refine .bind (.keywordId _) fun i i' hi => .ite (key _ _ _ hi) (.pure rfl) (.bind (.keywordId _) fun i i' hi => .ite (key _ _ _ hi) (.pure rfl)
    (.bind (.keywordId _) fun i i' hi => .ite (key _ _ _ hi) (.pure rfl) (.bind (.keywordId _) fun i i' hi => .ite (key _ _ _ hi) (.pure rfl) (.fail _ _))))

/-- The keyword `x`, if it is one. -/
theorem keyword_local (k : IncKind) : Local S (Like S) (do let i ← EM.keywordId k; pure (.obj (.mk i [] none)) : EM Value)
    (do let i ← EM.keywordId k; pure (.obj (.mk i [] none)) : EM Value) :=
  .bind (.keywordId _) fun i j h => .pure (by rw [h.1, h.2]; exact Like.refl _)

/-- The value of a name that is not a global. -/
theorem evalName_local {ps ps' : List Pair} {x : Str} (hx : x.head? ≠ some '@') (h : LikeP S ps ps') :
    Local S (Like S) (evalName file ps x) (evalName file ps' x) := by
  unfold evalName
  refine .ite Iff.rfl (.pure rfl) (.ite Iff.rfl (.pure rfl) (.ite Iff.rfl (.pure rfl) (.ite Iff.rfl (keyword_local _)
    (.ite Iff.rfl (keyword_local _) (.ite Iff.rfl (keyword_local _) (.ite Iff.rfl (keyword_local _) (.ite Iff.rfl (.fail _ _) ?_)))))))
  rw [if_neg hx, if_neg hx]
  rcases h.find x with ⟨h1, h2⟩ | ⟨p, p', h1, h2, h3⟩
  · rw [h1, h2]; exact .fail _ _
  · rw [h1, h2]; exact .pure h3

end

end Over
