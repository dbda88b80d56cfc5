import Verif.Lemmas.Globals
import Verif.Lemmas.EvalInv
import Verif.Lemmas.Place
import Verif.Lemmas.Project
import Verif.Spec.Edited

/-! # Editing the literals of a document -/

namespace Over

/-! ## Values -/

section
variable {k : Bool}

mutual
theorem Value.alike_refl : ∀ v : Value, v.alike k v
  | .null => rfl
  | .bool _ => rfl
  | .int i => ⟨i, rfl, .inr rfl⟩
  | .frac q => ⟨q, rfl⟩
  | .str s => ⟨s, rfl⟩
  | .arr _ _ vs => ⟨vs, rfl, Value.alikeL_refl vs⟩
  | .tup _ _ vs => ⟨vs, rfl, Value.alikeL_refl vs⟩
  | .obj o => ⟨o, rfl, Obj.alike_refl o⟩
termination_by structural v => v
theorem Value.alikeL_refl : ∀ v : List Value, Value.alikeL k v v
  | [] => rfl
  | v :: vs => ⟨v, vs, rfl, Value.alike_refl v, Value.alikeL_refl vs⟩
termination_by structural v => v
theorem Pair.alikeL_refl : ∀ v : List Pair, Pair.alikeL k v v
  | [] => rfl
  | .mk _ v :: vs => ⟨v, vs, rfl, Value.alike_refl v, Pair.alikeL_refl vs⟩
termination_by structural v => v
theorem Obj.alikeP_refl : ∀ v : Option Obj, Obj.alikeP k v v
  | none => rfl
  | some o => ⟨o, rfl, Obj.alike_refl o⟩
termination_by structural v => v
theorem Obj.alike_refl : ∀ v : Obj, v.alike k v
  | .mk _ ps par => ⟨ps, par, rfl, Pair.alikeL_refl ps, Obj.alikeP_refl par⟩
termination_by structural v => v
end

theorem Value.alike.getType_eq {v w : Value} (h : v.alike k w) : w.getType = v.getType := by
  cases v <;> simp only [Value.alike] at h
  case null => subst h; rfl
  case bool => subst h; rfl
  case int => obtain ⟨_, rfl, -⟩ := h; rfl
  case frac => obtain ⟨_, rfl⟩ := h; rfl
  case str => obtain ⟨_, rfl⟩ := h; rfl
  case arr => obtain ⟨_, rfl, -⟩ := h; rfl
  case tup => obtain ⟨_, rfl, -⟩ := h; rfl
  case obj => obtain ⟨_, rfl, -⟩ := h; rfl

theorem Value.alikeL.types : ∀ {vs ws : List Value}, Value.alikeL k vs ws → ws.map Value.getType = vs.map Value.getType
  | [], _, h => by simp only [Value.alikeL] at h; subst h; rfl
  | v :: vs, _, h => by
    simp only [Value.alikeL] at h
    obtain ⟨w, ws, rfl, h1, h2⟩ := h
    simp only [List.map_cons, h1.getType_eq, Value.alikeL.types h2]

theorem Value.alikeL.append : ∀ {vs ws vs' ws' : List Value}, Value.alikeL k vs ws → Value.alikeL k vs' ws' →
    Value.alikeL k (vs ++ vs') (ws ++ ws')
  | [], _, _, _, h, h' => by simp only [Value.alikeL] at h; subst h; exact h'
  | v :: vs, _, _, _, h, h' => by
    simp only [Value.alikeL] at h
    obtain ⟨w, ws, rfl, h1, h2⟩ := h
    exact ⟨w, _, rfl, h1, Value.alikeL.append h2 h'⟩

theorem Value.alikeL.get : ∀ {vs ws : List Value}, Value.alikeL k vs ws → ∀ i : Nat,
    (vs[i]? = none ∧ ws[i]? = none) ∨ ∃ v w, vs[i]? = some v ∧ ws[i]? = some w ∧ v.alike k w
  | [], _, h, i => by simp only [Value.alikeL] at h; subst h; exact .inl ⟨rfl, rfl⟩
  | v :: vs, _, h, i => by
    simp only [Value.alikeL] at h
    obtain ⟨w, ws, rfl, h1, h2⟩ := h
    cases i with
    | zero => exact .inr ⟨v, w, rfl, rfl, h1⟩
    | succ i => simpa using Value.alikeL.get h2 i

theorem Pair.alikeL.append : ∀ {vs ws vs' ws' : List Pair}, Pair.alikeL k vs ws → Pair.alikeL k vs' ws' →
    Pair.alikeL k (vs ++ vs') (ws ++ ws')
  | [], _, _, _, h, h' => by simp only [Pair.alikeL] at h; subst h; exact h'
  | .mk f v :: vs, _, _, _, h, h' => by
    simp only [Pair.alikeL] at h
    obtain ⟨w, ws, rfl, h1, h2⟩ := h
    exact ⟨w, _, rfl, h1, Pair.alikeL.append h2 h'⟩

theorem Pair.alikeL.names : ∀ {ps qs : List Pair}, Pair.alikeL k ps qs → qs.map Pair.field = ps.map Pair.field
  | [], _, h => by simp only [Pair.alikeL] at h; subst h; rfl
  | .mk f v :: vs, _, h => by
    simp only [Pair.alikeL] at h
    obtain ⟨w, ws, rfl, h1, h2⟩ := h
    simp only [List.map_cons, Pair.field, Pair.alikeL.names h2]

theorem Pair.alikeL.find : ∀ {ps qs : List Pair}, Pair.alikeL k ps qs → ∀ x : Str,
    (ps.find? (fun p => p.field == x) = none ∧ qs.find? (fun p => p.field == x) = none) ∨
    ∃ f v w, ps.find? (fun p => p.field == x) = some (.mk f v) ∧ qs.find? (fun p => p.field == x) = some (.mk f w) ∧
      v.alike k w
  | [], _, h, i => by simp only [Pair.alikeL] at h; subst h; exact .inl ⟨rfl, rfl⟩
  | .mk f v :: vs, _, h, x => by
    simp only [Pair.alikeL] at h
    obtain ⟨w, ws, rfl, h1, h2⟩ := h
    by_cases hf : f = x
    · subst hf
      exact .inr ⟨f, v, w, by simp [Pair.field], by simp [Pair.field], h1⟩
    · have := Pair.alikeL.find h2 x
      rwa [List.find?_cons_of_neg (by simpa [Pair.field] using hf), List.find?_cons_of_neg (by simpa [Pair.field] using hf)]

end

/-! ## States, actions -/

variable {K : Edits} {file : Option Str} {C : StrMap Value → StrMap Value → Prop}

/-- The globals are alike, the values of the included files are as `C` says, and everything else is the same. -/
structure AlikeSt (k : Bool) (C : StrMap Value → StrMap Value → Prop) (st st' : ESt) : Prop where
  cache : C st.cache st'.cache
  rt : st'.rt = st.rt
  globals : ∀ x, (StrMap.get st.globals x = none ∧ StrMap.get st'.globals x = none) ∨
    ∃ v w, StrMap.get st.globals x = some v ∧ StrMap.get st'.globals x = some w ∧ v.alike k w

/-- An error that only the values explain. -/
def Edits.Div (K : Edits) (e : SemErr) : Prop := K.div = true ∧ ∃ file, e = .sem file .divisionByZero

/-- The outcomes are alike, or a division by zero is among them. -/
def AlikeRes (K : Edits) (C : StrMap Value → StrMap Value → Prop) {α : Type} (R : α → α → Prop) :
    Except SemErr (α × ESt) → Except SemErr (α × ESt) → Prop
  | .ok (a, st), .ok (b, st') => R a b ∧ AlikeSt K.ints C st st'
  | .ok _, .error e => K.Div e
  | .error e, .ok _ => K.Div e
  | .error e, .error e' => e = e' ∨ K.Div e ∨ K.Div e'

/-- The actions do alike in alike states. -/
def AlikeM (K : Edits) (C : StrMap Value → StrMap Value → Prop) {α : Type} (m m' : EM α) (R : α → α → Prop) : Prop :=
  ∀ st st', AlikeSt K.ints C st st' → AlikeRes K C R (m st) (m' st')

section
variable {α β : Type}

theorem AlikeM.bind {m m' : EM α} {f f' : α → EM β} {R : α → α → Prop} {Q : β → β → Prop} (h : AlikeM K C m m' R)
    (hf : ∀ a b, R a b → AlikeM K C (f a) (f' b) Q) : AlikeM K C (m >>= f) (m' >>= f') Q := by
  intro st st' hs
  have h1 := h st st' hs
  change AlikeRes K C Q (EM.bind m f st) (EM.bind m' f' st')
  unfold EM.bind
  cases e : m st with
  | error e1 =>
    rw [e] at h1
    cases e' : m' st' with
    | error e2 => rw [e'] at h1; exact h1
    | ok x =>
      rw [e'] at h1
      obtain ⟨b, st2⟩ := x
      dsimp only
      cases f' b st2 with
      | ok y => exact h1
      | error e3 => exact .inr (.inl h1)
  | ok x =>
    obtain ⟨a, st1⟩ := x
    rw [e] at h1
    cases e' : m' st' with
    | error e2 =>
      rw [e'] at h1
      dsimp only
      cases f a st1 with
      | ok y => exact h1
      | error e3 => exact .inr (.inr h1)
    | ok x =>
      rw [e'] at h1
      obtain ⟨b, st2⟩ := x
      exact hf a b h1.1 st1 st2 h1.2

theorem AlikeM.pure {R : α → α → Prop} {a b : α} (h : R a b) : AlikeM K C (pure a) (pure b) R :=
  fun _ _ hs => ⟨h, hs⟩

theorem AlikeM.fail {R : α → α → Prop} {k : SemKind} : AlikeM K C (EM.fail file k) (EM.fail file k) R :=
  fun _ _ _ => .inl rfl

theorem AlikeM.left {R : α → α → Prop} (h : K.div = true) (m : EM α) : AlikeM K C (EM.fail file .divisionByZero) m R := by
  intro st st' _
  unfold EM.fail
  cases m st' with
  | ok _ => exact ⟨h, _, rfl⟩
  | error _ => exact .inr (.inl ⟨h, _, rfl⟩)

theorem AlikeM.right {R : α → α → Prop} (h : K.div = true) (m : EM α) : AlikeM K C m (EM.fail file .divisionByZero) R := by
  intro st st' _
  unfold EM.fail
  cases m st with
  | ok _ => exact ⟨h, _, rfl⟩
  | error _ => exact .inr (.inr ⟨h, _, rfl⟩)

theorem AlikeM.fresh : AlikeM K C EM.fresh EM.fresh Eq := by
  intro st st' hs
  simp only [EM.fresh, AlikeRes, hs.rt]
  exact ⟨trivial, ⟨hs.cache, rfl, hs.globals⟩⟩

theorem AlikeM.keywordId (k : IncKind) : AlikeM K C (EM.keywordId k) (EM.keywordId k) Eq := by
  intro st st' hs
  cases k <;> simp only [EM.keywordId, hs.rt]
  · cases st.rt.objS <;> exact ⟨rfl, ⟨hs.cache, by first | rfl | exact hs.rt, hs.globals⟩⟩
  · cases st.rt.strS <;> exact ⟨rfl, ⟨hs.cache, by first | rfl | exact hs.rt, hs.globals⟩⟩
  · cases st.rt.arrS <;> exact ⟨rfl, ⟨hs.cache, by first | rfl | exact hs.rt, hs.globals⟩⟩
  · cases st.rt.tupS <;> exact ⟨rfl, ⟨hs.cache, by first | rfl | exact hs.rt, hs.globals⟩⟩

theorem AlikeM.ite {c : Prop} [Decidable c] {a b a' b' : EM α} {R : α → α → Prop} (h1 : AlikeM K C a a' R)
    (h2 : AlikeM K C b b' R) : AlikeM K C (if c then a else b) (if c then a' else b') R := by
  by_cases h : c
  · rw [if_pos h, if_pos h]; exact h1
  · rw [if_neg h, if_neg h]; exact h2

theorem AlikeM.depthCheck (d : Nat) : AlikeM K C (depthCheck file d) (depthCheck file d) Eq := by
  unfold Over.depthCheck
  exact .ite .fail (.pure rfl)

end

/-! ## Operators and names -/

/-- The results of a binary operation are alike. -/
def AlikeBin (K : Edits) : BinRes → BinRes → Prop
  | .val v, .val w => v.alike K.ints w
  | .newArr t vs, .newArr u ws => u = t ∧ Value.alikeL K.ints vs ws
  | .bad t1 t2, .bad u1 u2 => u1 = t1 ∧ u2 = t2
  | .divisionByZero, _ => K.div = true
  | .val _, .divisionByZero => K.div = true
  | _, _ => False

theorem divSem_alike (h : K.div = true) (x y x' y' : Rat) : AlikeBin K (divSem x y) (divSem x' y') := by
  unfold divSem
  split
  · exact h
  · split
    · exact h
    · exact ⟨_, rfl⟩

theorem binSem_alike {op : BinOp} (hop : op = .div ∨ op = .mod → K.div = true) {a b a' b' : Value} (ha : a.alike K.ints a')
    (hb : b.alike K.ints b') : AlikeBin K (binSem op a b) (binSem op a' b') := by
  have hta := ha.getType_eq
  have htb := hb.getType_eq
  have key : ∀ {i j : Int} {p : Prop}, (p ∨ j = i) → ∀ {i' j' : Int}, (p ∨ j' = i') → ∀ f : Int → Int → Int,
      (p ∨ f j j' = f i i') := by
    rintro i j p (h | rfl) i' j' (h' | rfl) f
    · exact .inl h
    · exact .inl h
    · exact .inl h'
    · exact .inr rfl
  cases a <;> simp only [Value.alike] at ha <;>
    first | subst ha | obtain ⟨a2, rfl, ha⟩ := ha
  all_goals
    cases b <;> simp only [Value.alike] at hb <;>
    first | subst hb | obtain ⟨b2, rfl, hb⟩ := hb
  all_goals
    cases op <;> simp only [binSem, promotedTypes, Value.getType] <;> try exact ⟨rfl, rfl⟩
  all_goals try exact ⟨_, rfl⟩
  all_goals try exact divSem_alike (hop (.inl rfl)) _ _ _ _
  · exact ⟨_, rfl, key ha hb (· + ·)⟩
  · exact ⟨_, rfl, key ha hb (· - ·)⟩
  · exact ⟨_, rfl, key ha hb (· * ·)⟩
  · have := hop (.inr rfl)
    split
    · exact this
    · split
      · exact this
      · exact ⟨_, rfl, key ha hb Int.tmod⟩
  · rename_i t _ _ u _
    cases Ty.mostSpecific t u with
    | none => exact ⟨rfl, rfl⟩
    | some x => exact ⟨rfl, ha.append hb⟩

theorem applyBin_alike {op : BinOp} (hop : op = .div ∨ op = .mod → K.div = true) {a b a' b' : Value} (ha : a.alike K.ints a')
    (hb : b.alike K.ints b') : AlikeM K C (applyBin file op a b) (applyBin file op a' b') (Value.alike K.ints) := by
  have h := binSem_alike hop ha hb
  unfold applyBin
  cases h1 : binSem op a b <;> cases h2 : binSem op a' b' <;> rw [h1, h2] at h <;> simp only [AlikeBin] at h
  · exact .pure h
  · exact .right h _
  · obtain ⟨rfl, h⟩ := h
    refine .bind .fresh ?_
    rintro i _ rfl
    exact .pure ⟨_, rfl, h⟩
  · obtain ⟨rfl, rfl⟩ := h
    exact .fail
  all_goals exact .left h _

theorem applyUn_alike {op : UnOp} {a a' : Value} (ha : a.alike K.ints a') :
    AlikeM K C (applyUn file op a) (applyUn file op a') (Value.alike K.ints) := by
  cases a <;> simp only [Value.alike] at ha <;>
    first | subst ha | obtain ⟨a2, rfl, ha⟩ := ha
  all_goals cases op <;> simp only [applyUn, Value.getType] <;> try exact .fail
  all_goals try exact .pure ⟨_, rfl⟩
  · exact .pure ⟨_, rfl, ha⟩
  · exact .pure ⟨_, rfl, ha.imp_right (by rintro rfl; rfl)⟩

/-- The pending sums are alike. -/
def AlikeSums (K : Edits) : List (BinOp × Value) → List (BinOp × Value) → Prop
  | [], l => l = []
  | (op, v) :: l, u => ∃ w m, u = (op, w) :: m ∧ v.alike K.ints w ∧ (op = .div ∨ op = .mod → K.div = true) ∧ AlikeSums K l m

theorem sumLeft_alike : ∀ {l m : List (BinOp × Value)} {v w : Value}, v.alike K.ints w → AlikeSums K l m →
    AlikeM K C (sumLeft file v l) (sumLeft file w m) (Value.alike K.ints)
  | [], _, _, _, h, h' => by
    simp only [AlikeSums] at h'
    subst h'
    exact .pure h
  | (op, x) :: l, _, _, _, h, h' => by
    simp only [AlikeSums] at h'
    obtain ⟨y, m, rfl, h1, h2, h3⟩ := h'
    exact .bind (applyBin_alike h2 h h1) fun _ _ hu => sumLeft_alike hu h3

theorem evalName_alike {ps qs : List Pair} (h : Pair.alikeL K.ints ps qs) (x : Str) :
    AlikeM K C (evalName file ps x) (evalName file qs x) (Value.alike K.ints) := by
  have kw : ∀ k, AlikeM K C (do let i ← EM.keywordId k; pure (.obj (.mk i [] none)) : EM Value)
      (do let i ← EM.keywordId k; pure (.obj (.mk i [] none))) (Value.alike K.ints) := by
    intro k
    refine .bind (.keywordId _) ?_
    rintro i _ rfl
    exact .pure (Value.alike_refl _)
  unfold evalName
  refine .ite (.pure rfl) (.ite (.pure rfl) (.ite (.pure rfl) (.ite (kw _) (.ite (kw _) (.ite (kw _) (.ite (kw _)
    (.ite .fail (.ite ?_ ?_))))))))
  · intro st st' hs
    unfold evalGlobal
    rcases hs.globals x with ⟨h1, h2⟩ | ⟨v, w, h1, h2, h3⟩
    · rw [h1, h2]; exact .inl rfl
    · rw [h1, h2]; exact ⟨h3, hs⟩
  · rcases h.find x with ⟨h1, h2⟩ | ⟨f, v, w, h1, h2, h3⟩
    · rw [h1, h2]; exact .fail
    · rw [h1, h2]; exact .pure h3

theorem evalIndex_alike {oob : Nat → OverError} {vs ws : List Value} (h : Value.alikeL K.ints vs ws) {i j : Value}
    (hij : i.alike false j) : AlikeM K C (evalIndex file oob vs i) (evalIndex file oob ws j) (Value.alike K.ints) := by
  cases i <;> simp only [Value.alike] at hij <;>
    first | subst hij | obtain ⟨a2, rfl, hij⟩ := hij
  all_goals simp only [evalIndex, Value.getType]
  all_goals try exact .fail
  simp only [Bool.false_eq_true, false_or] at hij
  subst hij
  refine .ite ?_ .fail
  rcases h.get a2.toNat with ⟨h1, h2⟩ | ⟨v, w, h1, h2, h3⟩
  · rw [h1, h2]; exact .fail
  · rw [h1, h2]; exact .pure h3

theorem evalKeyword_alike {v w : Value} (h : v.alike K.ints w) : AlikeM K C (evalKeyword file v) (evalKeyword file w) Eq := by
  cases v <;> simp only [Value.alike] at h <;>
    first | subst h | obtain ⟨a2, rfl, h⟩ := h
  all_goals simp only [evalKeyword, Value.getType]
  all_goals try exact .fail
  all_goals try exact .pure rfl
  · rename_i o
    have : a2.id = o.id := by
      cases o
      simp only [Obj.alike] at h
      obtain ⟨_, _, rfl, -⟩ := h
      rfl
    rw [this]
    refine .bind (.keywordId _) ?_
    rintro i _ rfl
    refine .ite (.pure rfl) (.bind (.keywordId _) ?_)
    rintro i _ rfl
    refine .ite (.pure rfl) (.bind (.keywordId _) ?_)
    rintro i _ rfl
    refine .ite (.pure rfl) (.bind (.keywordId _) ?_)
    rintro i _ rfl
    exact .ite (.pure rfl) .fail

theorem checkNew_alike {ps qs : List Pair} (h : Pair.alikeL K.ints ps qs) {par par' : Option Obj}
    (hp : Obj.alikeP K.ints par par') (tg : Target) : AlikeM K C (checkNew file ps par tg) (checkNew file qs par' tg) Eq := by
  cases tg with
  | field f =>
    simp only [checkNew, h.names]
    exact .ite .fail (.pure rfl)
  | parent =>
    have : par'.isSome = par.isSome := by
      cases par <;> simp only [Obj.alikeP] at hp
      · subst hp; rfl
      · obtain ⟨_, rfl, -⟩ := hp; rfl
    simp only [checkNew, this]
    exact .ite .fail (.pure rfl)
  | global g =>
    intro st st' hs
    simp only [checkNew]
    rcases hs.globals g with ⟨h1, h2⟩ | ⟨v, w, h1, h2, h3⟩
    · rw [h1, h2]; exact ⟨rfl, hs⟩
    · rw [h1, h2]; exact .inl rfl

theorem setGlobal_alike (g : Str) {v w : Value} (h : v.alike K.ints w) : AlikeM K C (setGlobal g v) (setGlobal g w) Eq := by
  intro st st' hs
  refine ⟨rfl, hs.cache, hs.rt, fun x => ?_⟩
  by_cases hx : x = g
  · subst hx
    exact .inr ⟨v, w, StrMap.get_insert_self _ _ _, StrMap.get_insert_self _ _ _, h⟩
  · simp only [StrMap.get_insert_ne _ _ hx]
    exact hs.globals x

/-- Actions that do not see the globals do the same. -/
theorem Oblivious.alike {m : EM Value} (h : Oblivious m) : AlikeM K Eq m m (Value.alike K.ints) := by
  intro st st' hs
  have he : st' = { st with globals := st'.globals } := by
    obtain ⟨h1, h2, -⟩ := hs
    cases st'
    cases st
    simp only at h1 h2
    subst h1 h2
    rfl
  obtain ⟨h1, h2⟩ := h st st'.globals
  rw [he]
  cases e : m st with
  | ok x =>
    obtain ⟨a, s⟩ := x
    obtain ⟨h3, h4⟩ := h1 a s e
    rw [h4]
    refine ⟨Value.alike_refl _, rfl, rfl, ?_⟩
    rw [h3]
    exact hs.globals
  | error e1 =>
    rw [h2 e1 e]
    exact .inl rfl

/-! ## Trees -/

theorem Term.edited_isGlobal {t t' : Term} {S : List Str} (h : t.edited K S t') : t'.isGlobal = t.isGlobal := by
  cases t <;> simp only [Term.edited] at h
  case str => obtain ⟨_, rfl⟩ := h; rfl
  case int => rcases h with rfl | ⟨-, _, rfl | rfl⟩ <;> rfl
  case frac => obtain ⟨_, rfl | rfl⟩ := h <;> rfl
  case name => subst h; rfl
  case dot => obtain ⟨_, rfl, -⟩ := h; rfl
  case neg => rcases h with ⟨_, rfl, -⟩ | ⟨_, _, rfl, -, rfl⟩ | ⟨_, _, rfl, rfl⟩ <;> rfl
  case pos => obtain ⟨_, rfl, -⟩ := h; rfl
  case arr => obtain ⟨_, rfl, -⟩ := h; rfl
  case tup => obtain ⟨_, rfl, -⟩ := h; rfl
  case obj => obtain ⟨_, rfl, -⟩ := h; rfl
  case incl => obtain ⟨rfl, -⟩ := h; rfl
  case inclAs => obtain ⟨_, rfl, -⟩ := h; rfl

section
variable {fs fs' : FS} {stack : List Str} {load load' : Loader}

/-- Evaluating a literal path. -/
theorem evalExpr_path {e : Expr} (h : e.literalPath.isSome = true) {d : Nat} :
    ∃ p, (∀ ps, evalExpr fs file stack load e ps d = pure (.str p)) ∧ ∀ ps, evalExpr fs' file stack load' e ps d = pure (.str p) := by
  unfold Expr.literalPath at h
  split at h
  · rename_i p
    exact ⟨p, fun ps => by funext st; rw [evalExpr_term]; simp only [evalTerm],
      fun ps => by funext st; rw [evalExpr_term]; simp only [evalTerm]⟩
  · cases h

/-- The fields in scope are alike, and their names are in `S` (if that matters). -/
structure Scoped (K : Edits) (S : List Str) (ps qs : List Pair) : Prop where
  alike : Pair.alikeL K.ints ps qs
  names : K.ints = true → ∀ p ∈ ps, p.field ∈ S

theorem Scoped.nil : Scoped K [] [] [] := ⟨rfl, by simp⟩

theorem Scoped.snoc {S : List Str} {ps qs : List Pair} (h : Scoped K S ps qs) {f : Str} {v w : Value} (hv : v.alike K.ints w) :
    Scoped K (f :: S) (ps ++ [.mk f v]) (qs ++ [.mk f w]) := by
  refine ⟨h.alike.append ⟨_, _, rfl, hv, rfl⟩, fun hk p hp => ?_⟩
  rcases List.mem_append.1 hp with hp | hp
  · exact List.mem_cons_of_mem _ (h.names hk p hp)
  · simp only [List.mem_singleton] at hp
    subst hp
    exact List.mem_cons_self

/-- The index of an array. -/
theorem index_alike {t t' : Term} {S : List Str} {ps qs : List Pair} {d : Nat} (h1 : AlikeM K C
    (evalTerm fs file stack load t ps d) (evalTerm fs' file stack load' t' qs d) (Value.alike K.ints)) (hp : Scoped K S ps qs)
    (h2 : K.ints = false ∨ (t' = t ∧ t.noIndex S)) :
    AlikeM K C (evalTerm fs file stack load t ps d) (evalTerm fs' file stack load' t' qs d) (Value.alike false) := by
  cases hk : K.ints with
  | false => rw [hk] at h1; exact h1
  | true =>
    obtain ⟨rfl, h3⟩ := h2.resolve_left (by rw [hk]; simp)
    cases t' <;> simp only [Term.noIndex] at h3
    · simp only [evalTerm]; exact .pure (Value.alike_refl _)
    · simp only [evalTerm]; exact .pure (Value.alike_refl _)
    · simp only [evalTerm]
      rename_i y
      have hy : ∀ rs : List Pair, (∀ p ∈ rs, p.field ∈ S) → rs.find? (fun p => p.field == y) = none := by
        intro rs hrs
        rw [List.find?_eq_none]
        intro p hpm
        simp only [beq_iff_eq]
        rintro rfl
        exact h3.1 (hrs p hpm)
      have e1 := hy ps (hp.names hk)
      have e2 := (hp.alike.find y).resolve_right (by rintro ⟨_, _, _, h, -⟩; rw [e1] at h; cases h)
      have kw : ∀ k, AlikeM K C (do let i ← EM.keywordId k; pure (.obj (.mk i [] none)) : EM Value)
          (do let i ← EM.keywordId k; pure (.obj (.mk i [] none))) (Value.alike false) := by
        intro k
        refine .bind (.keywordId _) ?_
        rintro i _ rfl
        exact .pure (Value.alike_refl _)
      unfold evalName
      refine .ite (.pure rfl) (.ite (.pure rfl) (.ite (.pure rfl) (.ite (kw _) (.ite (kw _) (.ite (kw _) (.ite (kw _)
        (.ite .fail ?_)))))))
      rw [if_neg h3.2, if_neg h3.2, e1, e2.2]
      exact .fail

section
set_option linter.unusedSectionVars false
variable (hI : ∀ kind p, AlikeM K C (evalInclude fs file stack load kind p) (evalInclude fs' file stack load' kind p)
  (Value.alike K.ints))
include hI

mutual
theorem evalTerm_alike : ∀ (t t' : Term) (S : List Str), t.edited K S t' → ∀ (ps qs : List Pair), Scoped K S ps qs → ∀ d : Nat,
    AlikeM K C (evalTerm fs file stack load t ps d) (evalTerm fs' file stack load' t' qs d) (Value.alike K.ints)
  | .str s, u, S, h, ps, qs, hp, d => by
    simp only [Term.edited] at h
    obtain ⟨s', rfl⟩ := h
    simp only [evalTerm]
    exact .pure ⟨_, rfl⟩
  | .int s, u, S, h, ps, qs, hp, d => by
    simp only [Term.edited] at h
    rcases h with rfl | ⟨hk, j, rfl | rfl⟩
    · simp only [evalTerm]
      exact .pure (Value.alike_refl _)
    · simp only [evalTerm]
      exact .pure ⟨_, rfl, .inl hk⟩
    · simp only [evalTerm]
      exact AlikeM.pure (R := Value.alike K.ints) (b := Value.int (-j)) ⟨_, rfl, .inl hk⟩
  | .frac s, u, S, h, ps, qs, hp, d => by
    simp only [Term.edited] at h
    obtain ⟨q, rfl | rfl⟩ := h
    · simp only [evalTerm]
      exact .pure ⟨_, rfl⟩
    · simp only [evalTerm]
      exact AlikeM.pure (R := Value.alike K.ints) (b := Value.frac (-q)) ⟨_, rfl⟩
  | .name x, u, S, h, ps, qs, hp, d => by
    simp only [Term.edited] at h
    subst h
    simp only [evalTerm]
    exact evalName_alike hp.alike x
  | .dot x t, u, S, h, ps, qs, hp, d => by
    simp only [Term.edited] at h
    obtain ⟨t', rfl, h1, hn, h2⟩ := h
    have ih := evalTerm_alike t t' S h1
    have hi : K.ints = false ∨ (t' = t ∧ t.noIndex S) := by
      cases hk : K.ints with
      | false => exact .inl rfl
      | true => exact .inr (h2 hk)
    simp only [evalTerm]
    refine .bind (evalName_alike hp.alike x) fun v w hv => ?_
    have ht := hv.getType_eq
    cases v <;> simp only [Value.alike] at hv <;>
    first | subst hv | obtain ⟨w2, rfl, hv⟩ := hv
    all_goals try exact .fail
    · exact .bind (index_alike (ih ps qs hp (d + 1)) hp hi) fun _ _ hi => evalIndex_alike hv hi
    · exact .bind (index_alike (ih ps qs hp (d + 1)) hp hi) fun _ _ hi => evalIndex_alike hv hi
    · rename_i o
      dsimp only
      rw [hn, Term.edited_isGlobal h1]
      refine .ite .fail (.ite .fail ?_)
      have ho : Pair.alikeL K.ints o.pairs w2.pairs := by
        cases o
        simp only [Obj.alike] at hv
        obtain ⟨_, _, rfl, hv, -⟩ := hv
        exact hv
      rcases hi with hi | ⟨rfl, hi⟩
      · exact ih _ _ ⟨ho, fun h => by rw [hi] at h; cases h⟩ (d + 1)
      · cases t' <;> simp only [Term.noIndex] at hi <;> simp only [evalTerm]
        · exact .pure (Value.alike_refl _)
        · exact .pure (Value.alike_refl _)
        · exact evalName_alike ho _
  | .neg t, u, S, h, ps, qs, hp, d => by
    simp only [Term.edited] at h
    rcases h with ⟨t', rfl, h1⟩ | ⟨i, j, rfl, hk, rfl⟩ | ⟨q, r, rfl, rfl⟩
    rotate_left
    · simp only [evalTerm]
      exact AlikeM.pure (R := Value.alike K.ints) (a := Value.int (-i)) ⟨_, rfl, .inl hk⟩
    · simp only [evalTerm]
      exact AlikeM.pure (R := Value.alike K.ints) (a := Value.frac (-q)) ⟨_, rfl⟩
    simp only [evalTerm]
    exact .bind (evalTerm_alike t t' S h1 ps qs hp (d + 1)) fun _ _ hv => applyUn_alike hv
  | .pos t, u, S, h, ps, qs, hp, d => by
    simp only [Term.edited] at h
    obtain ⟨t', rfl, h1⟩ := h
    simp only [evalTerm]
    exact .bind (evalTerm_alike t t' S h1 ps qs hp (d + 1)) fun _ _ hv => applyUn_alike hv
  | .arr es, u, S, h, ps, qs, hp, d => by
    simp only [Term.edited] at h
    obtain ⟨t', rfl, h1⟩ := h
    simp only [evalTerm]
    refine .bind (.depthCheck _) fun _ _ _ => .bind (evalElems_alike es t' S h1 ps qs hp (d + 1) .any) ?_
    rintro ⟨vs, t⟩ ⟨ws, t2⟩ ⟨rfl, h2⟩
    refine .bind .fresh ?_
    rintro i _ rfl
    exact .pure ⟨_, rfl, h2⟩
  | .tup es, u, S, h, ps, qs, hp, d => by
    simp only [Term.edited] at h
    obtain ⟨t', rfl, h1⟩ := h
    simp only [evalTerm]
    refine .bind (.depthCheck _) fun _ _ _ => .bind (evalItems_alike es t' S h1 ps qs hp (d + 1)) ?_
    intro vs ws h2
    refine .bind .fresh ?_
    rintro i _ rfl
    refine .pure ⟨ws, ?_, h2⟩
    rw [h2.types]
  | .obj fds, u, S, h, ps, qs, hp, d => by
    simp only [Term.edited] at h
    obtain ⟨t', rfl, h1⟩ := h
    simp only [evalTerm]
    refine .bind (.depthCheck _) fun _ _ _ => .bind (evalFields_alike fds t' [] h1 (d + 1) [] [] none none .nil rfl) ?_
    rintro ⟨ps, par⟩ ⟨qs, par'⟩ ⟨h2, h3⟩
    refine .bind .fresh ?_
    rintro i _ rfl
    exact .pure ⟨_, rfl, _, _, rfl, h2, h3⟩
  | .incl e, u, S, h, ps, qs, hp, d => by
    simp only [Term.edited] at h
    obtain ⟨rfl, h1⟩ := h
    simp only [evalTerm]
    obtain ⟨p, h3, h4⟩ := evalExpr_path (fs := fs) (fs' := fs') (file := file) (stack := stack) (load := load) (load' := load') (d := d + 1) h1
    rw [h3, h4]
    refine .bind (.depthCheck _) fun _ _ _ => .bind (R := Eq) (.pure rfl) ?_
    rintro v _ rfl
    refine .bind (evalKeyword_alike (Value.alike_refl v)) ?_
    rintro k _ rfl
    split
    · exact hI _ _
    · exact .fail
  | .inclAs k e, u, S, h, ps, qs, hp, d => by
    simp only [Term.edited] at h
    obtain ⟨k', rfl, h1, h2⟩ := h
    simp only [evalTerm]
    refine .bind (.depthCheck _) fun _ _ _ => .bind (evalExpr_alike k k' S h1 ps qs hp (d + 1)) fun v w hv =>
      .bind (evalKeyword_alike hv) ?_
    rintro kind _ rfl
    cases kind with
    | none => exact .fail
    | some kind =>
      obtain ⟨p, h3, h4⟩ := evalExpr_path (fs := fs) (fs' := fs') (file := file) (stack := stack) (load := load) (load' := load') (d := d + 1) h2
      dsimp only
      rw [h3, h4]
      exact hI _ _
termination_by structural t => t
theorem evalExpr_alike : ∀ (e e' : Expr) (S : List Str), e.edited K S e' → ∀ (ps qs : List Pair), Scoped K S ps qs → ∀ d : Nat,
    AlikeM K C (evalExpr fs file stack load e ps d) (evalExpr fs' file stack load' e' qs d) (Value.alike K.ints)
  | .mk t r, u, S, h, ps, qs, hp, d => by
    simp only [Expr.edited] at h
    obtain ⟨t', r', rfl, h1, h2⟩ := h
    simp only [evalExpr]
    refine .bind (evalTerm_alike t t' S h1 ps qs hp d) fun v w hv => .bind (evalChain_alike r r' S h2 v w hv ps qs hp d) ?_
    rintro ⟨p, l⟩ ⟨q, m⟩ ⟨h3, h4⟩
    exact sumLeft_alike h3 h4
termination_by structural t => t
theorem evalChain_alike : ∀ (r r' : List OpTerm) (S : List Str), OpTerm.editedL K r S r' → ∀ v w : Value, v.alike K.ints w →
    ∀ (ps qs : List Pair), Scoped K S ps qs → ∀ d : Nat,
    AlikeM K C (evalChain fs file stack load r v ps d) (evalChain fs' file stack load' r' w qs d)
      (fun x y => x.1.alike K.ints y.1 ∧ AlikeSums K x.2 y.2)
  | [], u, S, h, v, w, hv, ps, qs, hp, d => by
    simp only [OpTerm.editedL] at h
    subst h
    simp only [evalChain]
    exact .pure ⟨hv, rfl⟩
  | .mk op t :: r, u, S, h, v, w, hv, ps, qs, hp, d => by
    simp only [OpTerm.editedL] at h
    obtain ⟨t', r', rfl, h1, h2, h3⟩ := h
    simp only [evalChain]
    refine .bind (evalTerm_alike t t' S h1 ps qs hp d) fun v2 w2 hv2 => .ite ?_ ?_
    · exact .bind (applyBin_alike h2 hv hv2) fun v3 w3 hv3 => evalChain_alike r r' S h3 v3 w3 hv3 ps qs hp d
    · refine .bind (evalChain_alike r r' S h3 v2 w2 hv2 ps qs hp d) ?_
      rintro ⟨p, l⟩ ⟨q, m⟩ ⟨h4, h5⟩
      exact .pure ⟨hv, _, _, rfl, h4, h2, h5⟩
termination_by structural t => t
theorem evalElems_alike : ∀ (es es' : List Expr) (S : List Str), Expr.editedL K es S es' →
    ∀ (ps qs : List Pair), Scoped K S ps qs →
    ∀ (d : Nat) (t : Ty), AlikeM K C (evalElems fs file stack load es ps d t) (evalElems fs' file stack load' es' qs d t)
      (fun x y => y.2 = x.2 ∧ Value.alikeL K.ints x.1 y.1)
  | [], u, S, h, ps, qs, hp, d, t => by
    simp only [Expr.editedL] at h
    subst h
    simp only [evalElems]
    exact .pure ⟨rfl, rfl⟩
  | e :: es, u, S, h, ps, qs, hp, d, t => by
    simp only [Expr.editedL] at h
    obtain ⟨e', es', rfl, h1, h2⟩ := h
    simp only [evalElems]
    refine .bind (evalExpr_alike e e' S h1 ps qs hp d) fun v w hv => ?_
    rw [hv.getType_eq]
    cases Ty.mostSpecific t v.getType with
    | none => exact .fail
    | some x =>
      refine .bind (evalElems_alike es es' S h2 ps qs hp d x.1) ?_
      rintro ⟨vs, t1⟩ ⟨ws, t2⟩ ⟨h3, h4⟩
      exact .pure ⟨h3, _, _, rfl, hv, h4⟩
termination_by structural t => t
theorem evalItems_alike : ∀ (es es' : List Expr) (S : List Str), Expr.editedL K es S es' →
    ∀ (ps qs : List Pair), Scoped K S ps qs →
    ∀ (d : Nat), AlikeM K C (evalItems fs file stack load es ps d) (evalItems fs' file stack load' es' qs d)
      (Value.alikeL K.ints)
  | [], u, S, h, ps, qs, hp, d => by
    simp only [Expr.editedL] at h
    subst h
    simp only [evalItems]
    exact .pure rfl
  | e :: es, u, S, h, ps, qs, hp, d => by
    simp only [Expr.editedL] at h
    obtain ⟨e', es', rfl, h1, h2⟩ := h
    simp only [evalItems]
    refine .bind (evalExpr_alike e e' S h1 ps qs hp d) fun v w hv => ?_
    refine .bind (evalItems_alike es es' S h2 ps qs hp d) fun vs ws h4 => ?_
    exact .pure ⟨_, _, rfl, hv, h4⟩
termination_by structural t => t
theorem evalFields_alike : ∀ (fds fds' : List Field) (S : List Str), Field.editedL K fds S fds' →
    ∀ (d : Nat) (ps qs : List Pair) (par par' : Option Obj), Scoped K S ps qs → Obj.alikeP K.ints par par' →
    AlikeM K C (evalFields fs file stack load fds d ps par) (evalFields fs' file stack load' fds' d qs par')
      (fun x y => Pair.alikeL K.ints x.1 y.1 ∧ Obj.alikeP K.ints x.2 y.2)
  | [], u, S, h, d, ps, qs, par, par', hp, hpar => by
    simp only [Field.editedL] at h
    subst h
    simp only [evalFields]
    exact .pure ⟨hp.alike, hpar⟩
  | .mk tg e :: fds, u, S, h, d, ps, qs, par, par', hp, hpar => by
    simp only [Field.editedL] at h
    obtain ⟨e', fds', rfl, h1, h2⟩ := h
    simp only [evalFields]
    refine .bind (checkNew_alike hp.alike hpar tg) fun _ _ _ => .bind (evalExpr_alike e e' S h1 ps qs hp d) fun v w hv => ?_
    cases tg with
    | field f => exact evalFields_alike fds fds' (f :: S) h2 d _ _ par par' (hp.snoc hv) hpar
    | global g => exact .bind (setGlobal_alike g hv) fun _ _ _ => evalFields_alike fds fds' S h2 d _ _ par par' hp hpar
    | parent =>
      cases v <;> simp only [Value.alike] at hv <;>
    first | subst hv | obtain ⟨w2, rfl, hv⟩ := hv
      all_goals try exact .fail
      · exact evalFields_alike fds fds' S h2 d _ _ _ _ hp ⟨_, rfl, hv⟩
termination_by structural t => t
end

theorem evalDoc_alike (D D' : List Field) (h : Field.editedL K D [] D') :
    AlikeM K C (evalDoc fs file stack load D) (evalDoc fs' file stack load' D') (Obj.alike K.ints) := by
  unfold evalDoc
  refine .bind (evalFields_alike hI D D' [] h 1 [] [] none none .nil rfl) ?_
  rintro ⟨ps, par⟩ ⟨qs, par'⟩ ⟨h2, h3⟩
  refine .bind .fresh ?_
  rintro i _ rfl
  exact .pure ⟨_, _, rfl, h2, h3⟩

theorem evalArrFile_alike (es es' : List Expr) (h : Expr.editedL K es [] es') :
    AlikeM K C (evalArrFile fs file stack load es) (evalArrFile fs' file stack load' es') (Value.alike K.ints) := by
  unfold evalArrFile
  refine .bind (evalElems_alike hI es es' [] h [] [] .nil 1 .any) ?_
  rintro ⟨vs, t⟩ ⟨ws, t2⟩ ⟨rfl, h2⟩
  refine .bind .fresh ?_
  rintro i _ rfl
  exact .pure ⟨_, rfl, h2⟩

theorem evalTupFile_alike (es es' : List Expr) (h : Expr.editedL K es [] es') :
    AlikeM K C (evalTupFile fs file stack load es) (evalTupFile fs' file stack load' es') (Value.alike K.ints) := by
  unfold evalTupFile
  refine .bind (evalItems_alike hI es es' [] h [] [] .nil 1) ?_
  intro vs ws h2
  refine .bind .fresh ?_
  rintro i _ rfl
  refine .pure ⟨ws, ?_, h2⟩
  rw [h2.types]

end

end

section
variable [Unicode]

/-- The meanings of the documents are alike. -/
theorem meaning_alike {fs : FS} {stack : List Str} {D D' : List Field} (h : Field.editedL K D [] D') (rt : Rt) :
    AlikeRes K Eq (Obj.alike K.ints) (meaning fs file stack D rt) (meaning fs file stack D' rt) :=
  evalDoc_alike (fun kind p => (evalInclude_oblivious fs _ file stack kind p).alike) D D' h _ _
    ⟨rfl, rfl, fun _ => .inl ⟨rfl, rfl⟩⟩

/-! ## Edited files -/

/-- The included files have alike values. -/
def AlikeCache (k : Bool) (c c' : StrMap Value) : Prop :=
  ∀ x, (StrMap.get c x = none ∧ StrMap.get c' x = none) ∨
    ∃ v w, StrMap.get c x = some v ∧ StrMap.get c' x = some w ∧ v.alike k w

variable {fs fs' : FS}

theorem FS.LiteralsEdited.isFile (h : fs.LiteralsEdited K fs') (path : Str) : fs'.isFile path = fs.isFile path := by
  unfold FS.isFile
  rw [h.resolve]
  cases fs.resolve path with
  | none => rfl
  | some c =>
    simp only
    rcases h.files c with e | ⟨m, e, e'⟩ | ⟨t, t', e, e', -⟩
    · rw [e.1, e.2]
    · rw [e, e']
    · rw [e, e']; rfl

theorem FS.LiteralsEdited.read (h : fs.LiteralsEdited K fs') (path : Str) :
    (∃ m, fs.read path = .error m ∧ fs'.read path = .error m) ∨
    ∃ t t', fs.read path = .ok t ∧ fs'.read path = .ok t' ∧ TextEdited K t t' := by
  unfold FS.read
  rw [h.resolve, h.openErr]
  cases fs.resolve path with
  | none => exact .inl ⟨_, rfl, rfl⟩
  | some c =>
    simp only
    rcases h.files c with e | ⟨m, e, e'⟩ | ⟨t, t', e, e', h3⟩
    · rw [e.1, e.2]; exact .inl ⟨_, rfl, rfl⟩
    · rw [e, e']; exact .inl ⟨_, rfl, rfl⟩
    · rw [e, e']; exact .inr ⟨t, t', rfl, rfl, h3⟩

local notation "AC" => AlikeCache K.ints

omit [Unicode] in
theorem AlikeM.ownGlobals {α : Type} {m m' : EM α} {R : α → α → Prop} (h : AlikeM K C m m' R) :
    AlikeM K C m.ownGlobals m'.ownGlobals R := by
  intro st st' hs
  have h1 := h { st with globals := [] } { st' with globals := [] } ⟨hs.cache, hs.rt, fun _ => .inl ⟨rfl, rfl⟩⟩
  unfold EM.ownGlobals
  cases e : m { st with globals := [] } with
  | error e1 =>
    rw [e] at h1
    cases e' : m' { st' with globals := [] } with
    | error e2 => rw [e'] at h1; exact h1
    | ok x => rw [e'] at h1; exact h1
  | ok x =>
    rw [e] at h1
    cases e' : m' { st' with globals := [] } with
    | error e2 => rw [e'] at h1; exact h1
    | ok y =>
      rw [e'] at h1
      exact ⟨h1.1, h1.2.cache, h1.2.rt, hs.globals⟩

omit [Unicode] in
theorem AlikeM.dite {α : Type} {R : α → α → Prop} {c c' : Prop} {_ : Decidable c} {_ : Decidable c'} {a : c → EM α} {b : ¬ c → EM α}
    {a' : c' → EM α} {b' : ¬ c' → EM α} (hc : c ↔ c') (h1 : ∀ h h', AlikeM K C (a h) (a' h') R)
    (h2 : ∀ h h', AlikeM K C (b h) (b' h') R) : AlikeM K C (dite c a b) (dite c' a' b') R := by
  by_cases h : c
  · rw [dif_pos h, dif_pos (hc.1 h)]; exact h1 _ _
  · rw [dif_neg h, dif_neg (fun h' => h (hc.2 h'))]; exact h2 _ _

omit [Unicode] in
theorem AlikeM.error {α : Type} {R : α → α → Prop} (e : SemErr) : AlikeM K C (fun _ => .error e) (fun _ => .error e) R :=
  fun _ _ _ => .inl rfl

theorem evalInclude_alike (h : fs.LiteralsEdited K fs') {load load' : Loader}
    (hl : ∀ stack kind path, AlikeM K AC (load stack kind path) (load' stack kind path) (Value.alike K.ints))
    (stack : List Str) (kind : IncKind) (p : Str) :
    AlikeM K AC (evalInclude fs file stack load kind p) (evalInclude fs' file stack load' kind p) (Value.alike K.ints) := by
  unfold evalInclude
  extract_lets path
  generalize path = path
  rw [h.resolve]
  cases hr : fs.resolve path with
  | none => exact .fail
  | some full =>
    simp only
    rw [h.isFile, h.utf8]
    refine .ite .fail (.ite .fail ?_)
    intro st st' hs
    simp only
    rcases hs.cache full with ⟨h1, h2⟩ | ⟨v, w, h1, h2, h3⟩
    · rw [h1, h2]
      have h4 := hl (full :: stack) kind path st st' hs
      simp only
      cases e : load (full :: stack) kind path st with
      | error e1 =>
        rw [e] at h4
        cases e' : load' (full :: stack) kind path st' with
        | error e2 => rw [e'] at h4; exact h4
        | ok x => rw [e'] at h4; exact h4
      | ok x =>
        rw [e] at h4
        cases e' : load' (full :: stack) kind path st' with
        | error e2 => rw [e'] at h4; exact h4
        | ok y =>
          rw [e'] at h4
          refine ⟨h4.1, fun x => ?_, h4.2.rt, h4.2.globals⟩
          by_cases hx : x = full
          · subst hx
            exact .inr ⟨_, _, StrMap.get_insert_self _ _ _, StrMap.get_insert_self _ _ _, h4.1⟩
          · simp only [StrMap.get_insert_ne _ _ hx]
            exact h4.2.cache x
    · rw [h1, h2]
      exact ⟨h3, hs⟩

theorem loadN_alike (h : fs.LiteralsEdited K fs') : ∀ n stack kind path,
    AlikeM K AC (loadN fs n stack kind path) (loadN fs' n stack kind path) (Value.alike K.ints)
  | 0, _, _, _ => .error _
  | n + 1, stack, kind, path => by
    have ih := loadN_alike h n
    have hi := evalInclude_alike (file := some path) h ih stack
    rcases h.read path with ⟨m, e, e'⟩ | ⟨t, t', e, e', hd, hd', he, he'⟩
    · simp only [loadN, e, e']
      exact .error _
    · simp only [loadN, e, e']
      cases kind with
      | str => exact .pure ⟨_, rfl⟩
      | obj =>
        refine .dite ⟨fun ⟨d, h1⟩ => (hd d h1).imp fun _ h2 => h2.1, fun ⟨d, h1⟩ => hd' d h1⟩ (fun hx hx' => ?_) fun _ _ => .error _
        obtain ⟨d', h1, h2⟩ := hd _ hx.choose_spec
        rw [← spDoc_unique hx'.choose_spec h1] at h2
        exact .ownGlobals (.bind (evalDoc_alike hi _ _ h2) fun _ _ ho => .pure ⟨_, rfl, ho⟩)
      | arr =>
        refine .dite ⟨fun ⟨d, h1⟩ => (he d h1).imp fun _ h2 => h2.1, fun ⟨d, h1⟩ => he' d h1⟩ (fun hx hx' => ?_) fun _ _ => .error _
        obtain ⟨d', h1, h2⟩ := he _ hx.choose_spec
        rw [← spItems_unique hx'.choose_spec h1] at h2
        exact .ownGlobals (evalArrFile_alike hi _ _ h2)
      | tup =>
        refine .dite ⟨fun ⟨d, h1⟩ => (he d h1).imp fun _ h2 => h2.1, fun ⟨d, h1⟩ => he' d h1⟩ (fun hx hx' => ?_) fun _ _ => .error _
        obtain ⟨d', h1, h2⟩ := he _ hx.choose_spec
        rw [← spItems_unique hx'.choose_spec h1] at h2
        exact .ownGlobals (evalTupFile_alike hi _ _ h2)

/-- The meanings of the documents are alike when files are edited as well. -/
theorem meaning_alike_project (h : fs.LiteralsEdited K fs') {stack : List Str} {D D' : List Field}
    (hD : Field.editedL K D [] D') (rt : Rt) (hf : rt.Fine) :
    AlikeRes K AC (Obj.alike K.ints) (meaning fs file stack D rt) (meaning fs' file stack D' rt) := by
  rw [meaning_enough fs _ (Nat.le_max_left fs.nodes.length fs'.nodes.length) _ _ _ _ hf,
    meaning_enough fs' _ (Nat.le_max_right fs.nodes.length fs'.nodes.length) _ _ _ _ hf]
  exact evalDoc_alike (evalInclude_alike h (loadN_alike h _) stack) D D' hD _ _
    ⟨fun _ => .inl ⟨rfl, rfl⟩, rfl, fun _ => .inl ⟨rfl, rfl⟩⟩

end

end Over
