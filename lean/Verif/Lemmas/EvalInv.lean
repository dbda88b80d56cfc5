import Verif.Lemmas.WriteEval
import Verif.Spec.Scope

/-!
# Invariants of the evaluator

One induction over the evaluator for everything that is preserved by its steps: an invariant of the state, a relation
between the state before and after, and a property of the values, all with a ghost component.
-/

set_option linter.unusedSectionVars false

namespace Over

/-! ## Postconditions -/

/-- Evaluator states with a ghost component. -/
abbrev GSt (G : Type) := ESt × G

/-- Whatever `m` returns from `σ` satisfies `Q` for some ghost. -/
def epost {G α : Type} (m : EM α) (σ : GSt G) (Q : α → GSt G → Prop) : Prop :=
  ∀ a st', m σ.1 = .ok (a, st') → ∃ g, Q a (st', g)

section
variable {G α β : Type}

theorem epost_bind {m : EM α} {f : α → EM β} {σ : GSt G} {Q : β → GSt G → Prop}
    (h : epost m σ (fun a σ' => epost (f a) σ' Q)) : epost (m >>= f) σ Q := by
  intro b st' hb
  cases hm : m σ.1 with
  | error e => rw [EM.bind_err hm] at hb; cases hb
  | ok x =>
    obtain ⟨a, st1⟩ := x
    obtain ⟨g, hg⟩ := h a st1 hm
    rw [EM.bind_ok hm] at hb
    exact hg b st' hb

theorem epost_pure {a : α} {σ : GSt G} {Q : α → GSt G → Prop} (h : Q a σ) : epost (pure a) σ Q := by
  intro b st' hb
  cases hb
  exact ⟨σ.2, h⟩

theorem epost_fail {file : Option Str} {k : SemKind} {σ : GSt G} {Q : α → GSt G → Prop} :
    epost (EM.fail file k) σ Q := by
  intro b st' hb
  cases hb

theorem epost_mono {m : EM α} {σ : GSt G} {Q Q' : α → GSt G → Prop} (h : epost m σ Q)
    (hq : ∀ a σ', Q a σ' → Q' a σ') : epost m σ Q' := by
  intro a st' ha
  obtain ⟨g, hg⟩ := h a st' ha
  exact ⟨g, hq _ _ hg⟩

end

section
variable {G α : Type}

theorem epost_ite {c : Prop} [Decidable c] {a b : EM α} {σ : GSt G} {Q : α → GSt G → Prop} (h1 : c → epost a σ Q)
    (h2 : ¬ c → epost b σ Q) : epost (if c then a else b) σ Q := by
  by_cases h : c
  · rw [if_pos h]; exact h1 h
  · rw [if_neg h]; exact h2 h

theorem epost_dite {c : Prop} {_ : Decidable c} {a : c → EM α} {b : ¬ c → EM α} {σ : GSt G} {Q : α → GSt G → Prop}
    (h1 : ∀ h, epost (a h) σ Q) (h2 : ∀ h, epost (b h) σ Q) : epost (dite c a b) σ Q := by
  by_cases h : c
  · rw [dif_pos h]; exact h1 h
  · rw [dif_neg h]; exact h2 h

end

/-! ## The invariant -/

/-- The state after taking a fresh id. -/
def ESt.next (st : ESt) : ESt := st.withId st.rt.next

/-- The state after defining a global. -/
def ESt.define (st : ESt) (g : Str) (v : Value) : ESt := { st with globals := StrMap.insert st.globals g v }

/-- What must be shown for a property of evaluation; `defs` are the globals that may be defined. -/
structure EvalInv (G : Type) (defs : Str → Prop) where
  /-- invariant of the state -/
  I : GSt G → Prop
  /-- before and after -/
  R : GSt G → GSt G → Prop
  /-- property of values -/
  V : GSt G → Value → Prop
  refl : ∀ σ, R σ σ
  trans : ∀ {σ τ υ}, R σ τ → R τ υ → R σ υ
  mono : ∀ {σ τ v}, I σ → I τ → R σ τ → V σ v → V τ v
  null : ∀ σ, V σ .null
  bool : ∀ σ b, V σ (.bool b)
  int : ∀ σ i, V σ (.int i)
  frac : ∀ σ q, V σ (.frac q)
  str : ∀ σ s, V σ (.str s)
  ofArr : ∀ {σ i t vs}, I σ → V σ (.arr i t vs) → ∀ v ∈ vs, V σ v
  ofTup : ∀ {σ i ts vs}, I σ → V σ (.tup i ts vs) → ∀ v ∈ vs, V σ v
  ofObj : ∀ {σ o}, I σ → V σ (.obj o) → ∀ p ∈ o.pairs, V σ p.value
  newArr : ∀ {σ} t vs, I σ → (∀ v ∈ vs, V σ v) →
    ∃ g, I (σ.1.next, g) ∧ R σ (σ.1.next, g) ∧ V (σ.1.next, g) (.arr σ.1.rt.curId t vs)
  newTup : ∀ {σ} ts vs, I σ → (∀ v ∈ vs, V σ v) →
    ∃ g, I (σ.1.next, g) ∧ R σ (σ.1.next, g) ∧ V (σ.1.next, g) (.tup σ.1.rt.curId ts vs)
  newObj : ∀ {σ} ps par, I σ → (∀ p ∈ ps, V σ p.value) → (∀ q, par = some q → V σ (.obj q)) →
    ∃ g, I (σ.1.next, g) ∧ R σ (σ.1.next, g) ∧ V (σ.1.next, g) (.obj (.mk σ.1.rt.curId ps par))
  keyword : ∀ {σ} k, I σ → epost (EM.keywordId k) σ (fun i σ' => I σ' ∧ R σ σ' ∧ V σ' (.obj (.mk i [] none)))
  global : ∀ {σ g v}, I σ → StrMap.get σ.1.globals g = some v → V σ v
  setGlobal : ∀ {σ τ : GSt G} {g v}, defs g → I σ → StrMap.get σ.1.globals g = none → I τ → R σ τ → V τ v →
    I (τ.1.define g v, τ.2) ∧ R σ (τ.1.define g v, τ.2) ∧ ∀ w, V τ w → V (τ.1.define g v, τ.2) w

namespace EvalInv
variable {G : Type} {defs : Str → Prop} (E : EvalInv G defs)

/-- The usual postcondition for one value. -/
def Good (σ : GSt G) (v : Value) (σ' : GSt G) : Prop := E.I σ' ∧ E.R σ σ' ∧ E.V σ' v

/-- … for several values. -/
def Goods (σ : GSt G) (vs : List Value) (σ' : GSt G) : Prop := E.I σ' ∧ E.R σ σ' ∧ ∀ v ∈ vs, E.V σ' v

/-- … for the fields and parent of an object. -/
def GoodBody (σ : GSt G) (b : List Pair × Option Obj) (σ' : GSt G) : Prop :=
  E.I σ' ∧ E.R σ σ' ∧ (∀ p ∈ b.1, E.V σ' p.value) ∧ ∀ q, b.2 = some q → E.V σ' (.obj q)

theorem Good.trans {E : EvalInv G defs} {σ τ υ : GSt G} {v : Value} (h : E.R σ τ) (h2 : E.Good τ v υ) : E.Good σ v υ :=
  ⟨h2.1, E.trans h h2.2.1, h2.2.2⟩

theorem scalar_good {σ : GSt G} (hI : E.I σ) {v : Value} (h : E.V σ v) : epost (pure v) σ (E.Good σ) :=
  epost_pure ⟨hI, E.refl σ, h⟩

theorem applyBin_good {file : Option Str} {σ : GSt G} (hI : E.I σ) {op : BinOp} {a b : Value} (ha : E.V σ a)
    (hb : E.V σ b) : epost (applyBin file op a b) σ (E.Good σ) := by
  have key : ∀ v, binSem op a b = .val v → E.V σ v := by
    intro v hv
    cases op <;> cases a <;> cases b <;> simp only [binSem, divSem] at hv <;>
      (try split at hv) <;> (try cases hv) <;>
      first | exact E.int _ _ | exact E.frac _ _ | exact E.str _ _
  have key2 : ∀ t vs, binSem op a b = .newArr t vs → ∀ v ∈ vs, E.V σ v := by
    intro t vs hv
    cases op <;> cases a <;> cases b <;> simp only [binSem, divSem] at hv <;>
      (try split at hv) <;> (try cases hv)
    intro v hv
    rcases List.mem_append.1 hv with hv | hv
    · exact E.ofArr hI ha v hv
    · exact E.ofArr hI hb v hv
  unfold applyBin
  cases h : binSem op a b with
  | val v => exact E.scalar_good hI (key v h)
  | newArr t vs =>
    intro v st' hv
    obtain ⟨g, hg⟩ := E.newArr t vs hI (key2 t vs h)
    cases hv
    exact ⟨g, hg⟩
  | bad _ _ => exact epost_fail
  | divisionByZero => exact epost_fail

theorem applyUn_good {file : Option Str} {σ : GSt G} (hI : E.I σ) {op : UnOp} {a : Value} :
    epost (applyUn file op a) σ (E.Good σ) := by
  cases op <;> cases a <;> simp only [applyUn] <;>
    first
      | exact epost_fail
      | exact E.scalar_good hI (E.int _ _)
      | exact E.scalar_good hI (E.frac _ _)

theorem sumLeft_good {file : Option Str} : ∀ (r : List (BinOp × Value)) (v : Value) (σ : GSt G), E.I σ → E.V σ v →
    (∀ x ∈ r, E.V σ x.2) → epost (sumLeft file v r) σ (E.Good σ)
  | [], v, σ, hI, hv, _ => E.scalar_good hI hv
  | (op, w) :: r, v, σ, hI, hv, hr => by
    refine epost_bind (epost_mono (E.applyBin_good hI hv (hr _ List.mem_cons_self)) ?_)
    intro u τ hu
    have h := sumLeft_good (file := file) r u τ hu.1 hu.2.2
      (fun x hx => E.mono hI hu.1 hu.2.1 (hr x (List.mem_cons_of_mem _ hx)))
    exact epost_mono h (fun _ _ h => h.trans hu.2.1)

theorem evalName_good {file : Option Str} {σ : GSt G} (hI : E.I σ) {pairs : List Pair}
    (hp : ∀ p ∈ pairs, E.V σ p.value) (x : Str) : epost (evalName file pairs x) σ (E.Good σ) := by
  have kw : ∀ k, epost (do let i ← EM.keywordId k; pure (Value.obj (.mk i [] none))) σ (E.Good σ) := by
    intro k
    refine epost_bind (epost_mono (E.keyword k hI) ?_)
    intro i τ h
    exact epost_pure h
  unfold evalName
  split
  · exact E.scalar_good hI (E.null _)
  split
  · exact E.scalar_good hI (E.bool _ _)
  split
  · exact E.scalar_good hI (E.bool _ _)
  split
  · exact kw _
  split
  · exact kw _
  split
  · exact kw _
  split
  · exact kw _
  split
  · exact epost_fail
  split
  · intro v st' hv
    unfold evalGlobal at hv
    split at hv
    · rename_i w hw
      cases hv
      exact ⟨σ.2, hI, E.refl σ, E.global hI hw⟩
    · cases hv
  · cases hf : pairs.find? (fun p => p.field == x) with
    | none => exact epost_fail
    | some p => exact E.scalar_good hI (hp p (List.mem_of_find?_eq_some hf))

theorem evalIndex_good {file : Option Str} {oob : Nat → OverError} {σ : GSt G} (hI : E.I σ) {vs : List Value}
    (hv : ∀ v ∈ vs, E.V σ v) (i : Value) : epost (evalIndex file oob vs i) σ (E.Good σ) := by
  cases i with
  | int i =>
    simp only [evalIndex]
    split
    · cases h : vs[i.toNat]? with
      | none => exact epost_fail
      | some v => exact E.scalar_good hI (hv v (List.mem_of_getElem? h))
    · exact epost_fail
  | _ => exact epost_fail

theorem depthCheck_good {file : Option Str} {d : Nat} {σ : GSt G} {β : Type} {Q : β → GSt G → Prop} {m : EM β}
    (h : epost m σ Q) : epost (depthCheck file d >>= fun _ => m) σ Q := by
  refine epost_bind ?_
  unfold depthCheck
  split
  · exact epost_fail
  · exact epost_pure h

theorem evalKeyword_good {file : Option Str} {σ : GSt G} (hI : E.I σ) (v : Value) :
    epost (evalKeyword file v) σ (fun _ σ' => E.I σ' ∧ E.R σ σ') := by
  have step : ∀ {β : Type} (k : IncKind) (f : Nat → EM β) (τ : GSt G) (Q : β → GSt G → Prop), E.I τ → E.R σ τ →
      (∀ i τ', E.I τ' → E.R σ τ' → epost (f i) τ' Q) → epost (EM.keywordId k >>= f) τ Q := by
    intro β k f τ Q h1 h2 h3
    refine epost_bind (epost_mono (E.keyword k h1) ?_)
    intro i τ' h
    exact h3 i τ' h.1 (E.trans h2 h.2.1)
  cases v with
  | obj o =>
    simp only [evalKeyword]
    refine step _ _ σ _ hI (E.refl σ) ?_
    intro i1 τ1 h1 r1
    split
    · exact epost_pure ⟨h1, r1⟩
    refine step _ _ τ1 _ h1 r1 ?_
    intro i2 τ2 h2 r2
    split
    · exact epost_pure ⟨h2, r2⟩
    refine step _ _ τ2 _ h2 r2 ?_
    intro i3 τ3 h3 r3
    split
    · exact epost_pure ⟨h3, r3⟩
    refine step _ _ τ3 _ h3 r3 ?_
    intro i4 τ4 h4 r4
    split
    · exact epost_pure ⟨h4, r4⟩
    · exact epost_fail
  | str s => exact epost_pure ⟨hI, E.refl σ⟩
  | _ => exact epost_fail

section
variable {fs : FS} {file : Option Str} {stack : List Str} {load : Loader}

/-- Includes preserve the invariant. -/
def Includes (fs : FS) (file : Option Str) (stack : List Str) (load : Loader) : Prop :=
  ∀ kind p (σ : GSt G), E.I σ → epost (evalInclude fs file stack load kind p) σ (E.Good σ)

variable (hinc : E.Includes fs file stack load)
include hinc

mutual
theorem evalTerm_good : ∀ (t : Term) (pairs : List Pair) (d : Nat) (σ : GSt G), E.I σ → (∀ p ∈ pairs, E.V σ p.value) →
    (∀ g ∈ t.defs, defs g) → epost (evalTerm fs file stack load t pairs d) σ (E.Good σ)
  | .str s, pairs, d, σ, hI, hp, hd => by simp only [evalTerm]; exact E.scalar_good hI (E.str _ _)
  | .int n, pairs, d, σ, hI, hp, hd => by simp only [evalTerm]; exact E.scalar_good hI (E.int _ _)
  | .frac q, pairs, d, σ, hI, hp, hd => by simp only [evalTerm]; exact E.scalar_good hI (E.frac _ _)
  | .name x, pairs, d, σ, hI, hp, hd => by simp only [evalTerm]; exact E.evalName_good hI hp x
  | .dot x t, pairs, d, σ, hI, hp, hd => by
    simp only [Term.defs] at hd
    simp only [evalTerm]
    refine epost_bind (epost_mono (E.evalName_good hI hp x) ?_)
    intro v τ hv
    have hp' : ∀ p ∈ pairs, E.V τ p.value := fun p h => E.mono hI hv.1 hv.2.1 (hp p h)
    cases v with
    | arr i ty vs =>
      refine epost_bind (epost_mono (evalTerm_good t pairs (d + 1) τ hv.1 hp' hd) ?_)
      intro w υ hw
      have := E.evalIndex_good (file := file) (oob := .arrOutOfBounds) hw.1
        (E.ofArr hw.1 (E.mono hv.1 hw.1 hw.2.1 hv.2.2)) w
      exact epost_mono this (fun _ _ h => h.trans (E.trans hv.2.1 hw.2.1))
    | tup i ty vs =>
      refine epost_bind (epost_mono (evalTerm_good t pairs (d + 1) τ hv.1 hp' hd) ?_)
      intro w υ hw
      have := E.evalIndex_good (file := file) (oob := .tupOutOfBounds) hw.1
        (E.ofTup hw.1 (E.mono hv.1 hw.1 hw.2.1 hv.2.2)) w
      exact epost_mono this (fun _ _ h => h.trans (E.trans hv.2.1 hw.2.1))
    | obj o =>
      simp only []
      split
      · exact epost_fail
      split
      · exact epost_fail
      · exact epost_mono (evalTerm_good t o.pairs (d + 1) τ hv.1 (E.ofObj hv.1 hv.2.2) hd)
          (fun _ _ h => h.trans hv.2.1)
    | _ => exact epost_fail
  | .neg t, pairs, d, σ, hI, hp, hd => by
    simp only [Term.defs] at hd
    simp only [evalTerm]
    refine epost_bind (epost_mono (evalTerm_good t pairs (d + 1) σ hI hp hd) ?_)
    intro v τ hv
    exact epost_mono (E.applyUn_good hv.1) (fun _ _ h => h.trans hv.2.1)
  | .pos t, pairs, d, σ, hI, hp, hd => by
    simp only [Term.defs] at hd
    simp only [evalTerm]
    refine epost_bind (epost_mono (evalTerm_good t pairs (d + 1) σ hI hp hd) ?_)
    intro v τ hv
    exact epost_mono (E.applyUn_good hv.1) (fun _ _ h => h.trans hv.2.1)
  | .arr es, pairs, d, σ, hI, hp, hd => by
    simp only [Term.defs] at hd
    simp only [evalTerm]
    refine depthCheck_good (epost_bind (epost_mono (evalElems_good es pairs (d + 1) .any σ hI hp hd) ?_))
    rintro ⟨vs, t⟩ τ hv v st' hv'
    obtain ⟨g, h1, h2, h3⟩ := E.newArr t vs hv.1 hv.2.2
    cases hv'
    exact ⟨g, h1, E.trans hv.2.1 h2, h3⟩
  | .tup es, pairs, d, σ, hI, hp, hd => by
    simp only [Term.defs] at hd
    simp only [evalTerm]
    refine depthCheck_good (epost_bind (epost_mono (evalItems_good es pairs (d + 1) σ hI hp hd) ?_))
    rintro vs τ hv v st' hv'
    obtain ⟨g, h1, h2, h3⟩ := E.newTup (vs.map Value.getType) vs hv.1 hv.2.2
    cases hv'
    exact ⟨g, h1, E.trans hv.2.1 h2, h3⟩
  | .obj fds, pairs, d, σ, hI, hp, hd => by
    simp only [Term.defs] at hd
    simp only [evalTerm]
    refine depthCheck_good (epost_bind (epost_mono (evalFields_good fds (d + 1) [] none σ hI (by simp) (by simp) hd) ?_))
    rintro ⟨ps, par⟩ τ hv v st' hv'
    obtain ⟨g, h1, h2, h3⟩ := E.newObj ps par hv.1 hv.2.2.1 hv.2.2.2
    cases hv'
    exact ⟨g, h1, E.trans hv.2.1 h2, h3⟩
  | .incl e, pairs, d, σ, hI, hp, hd => by
    simp only [Term.defs] at hd
    simp only [evalTerm]
    refine depthCheck_good (epost_bind (epost_mono (evalExpr_good e pairs (d + 1) σ hI hp hd) ?_))
    intro v τ hv
    refine epost_bind (epost_mono (E.evalKeyword_good hv.1 v) ?_)
    intro k υ hk
    cases k with
    | some k => exact epost_fail
    | none =>
      cases v with
      | str p => exact epost_mono (hinc .obj p υ hk.1) (fun _ _ h => h.trans (E.trans hv.2.1 hk.2))
      | _ => exact epost_fail
  | .inclAs k e, pairs, d, σ, hI, hp, hd => by
    simp only [Term.defs, List.mem_append] at hd
    simp only [evalTerm]
    refine depthCheck_good (epost_bind (epost_mono
      (evalExpr_good k pairs (d + 1) σ hI hp (fun g hg => hd g (.inl hg))) ?_))
    intro v τ hv
    refine epost_bind (epost_mono (E.evalKeyword_good hv.1 v) ?_)
    intro kd υ hk
    have hr := E.trans hv.2.1 hk.2
    cases kd with
    | none => exact epost_fail
    | some kd =>
      refine epost_bind (epost_mono (evalExpr_good e pairs (d + 1) υ hk.1
        (fun p h => E.mono hI hk.1 hr (hp p h)) (fun g hg => hd g (.inr hg))) ?_)
      intro w φ hw
      cases w with
      | str p => exact epost_mono (hinc kd p φ hw.1) (fun _ _ h => h.trans (E.trans hr hw.2.1))
      | _ => exact epost_fail
termination_by structural t => t
theorem evalExpr_good : ∀ (e : Expr) (pairs : List Pair) (d : Nat) (σ : GSt G), E.I σ → (∀ p ∈ pairs, E.V σ p.value) →
    (∀ g ∈ e.defs, defs g) → epost (evalExpr fs file stack load e pairs d) σ (E.Good σ)
  | .mk t r, pairs, d, σ, hI, hp, hd => by
    simp only [Expr.defs, List.mem_append] at hd
    simp only [evalExpr]
    refine epost_bind (epost_mono (evalTerm_good t pairs d σ hI hp (fun g hg => hd g (.inl hg))) ?_)
    intro v τ hv
    refine epost_bind (epost_mono (evalChain_good r v pairs d τ hv.1 hv.2.2
      (fun p h => E.mono hI hv.1 hv.2.1 (hp p h)) (fun g hg => hd g (.inr hg))) ?_)
    rintro ⟨p, sums⟩ υ hw
    exact epost_mono (E.sumLeft_good sums p υ hw.1 hw.2.2.1 hw.2.2.2)
      (fun _ _ h => h.trans (E.trans hv.2.1 hw.2.1))
termination_by structural t => t
theorem evalChain_good : ∀ (r : List OpTerm) (v : Value) (pairs : List Pair) (d : Nat) (σ : GSt G), E.I σ → E.V σ v →
    (∀ p ∈ pairs, E.V σ p.value) → (∀ g ∈ OpTerm.defsL r, defs g) →
    epost (evalChain fs file stack load r v pairs d) σ
      (fun x σ' => E.I σ' ∧ E.R σ σ' ∧ E.V σ' x.1 ∧ ∀ y ∈ x.2, E.V σ' y.2)
  | [], v, pairs, d, σ, hI, hv, hp, hd => by
    simp only [evalChain]
    exact epost_pure ⟨hI, E.refl σ, hv, by simp⟩
  | .mk op t :: r, v, pairs, d, σ, hI, hv, hp, hd => by
    simp only [OpTerm.defsL, List.mem_append] at hd
    simp only [evalChain]
    refine epost_bind (epost_mono (evalTerm_good t pairs d σ hI hp (fun g hg => hd g (.inl hg))) ?_)
    intro w τ hw
    have hv' := E.mono hI hw.1 hw.2.1 hv
    split
    · refine epost_bind (epost_mono (E.applyBin_good hw.1 hv' hw.2.2) ?_)
      intro u υ hu
      have hr := E.trans hw.2.1 hu.2.1
      exact epost_mono (evalChain_good r u pairs d υ hu.1 hu.2.2 (fun p h => E.mono hI hu.1 hr (hp p h))
        (fun g hg => hd g (.inr hg))) (fun _ _ h => ⟨h.1, E.trans hr h.2.1, h.2.2⟩)
    · refine epost_bind (epost_mono (evalChain_good r w pairs d τ hw.1 hw.2.2
        (fun p h => E.mono hI hw.1 hw.2.1 (hp p h)) (fun g hg => hd g (.inr hg))) ?_)
      rintro ⟨p, sums⟩ υ hu
      refine epost_pure ⟨hu.1, E.trans hw.2.1 hu.2.1, E.mono hw.1 hu.1 hu.2.1 hv', ?_⟩
      intro y hy
      rcases List.mem_cons.1 hy with rfl | hy
      · exact hu.2.2.1
      · exact hu.2.2.2 y hy
termination_by structural t => t
theorem evalElems_good : ∀ (es : List Expr) (pairs : List Pair) (d : Nat) (t : Ty) (σ : GSt G), E.I σ →
    (∀ p ∈ pairs, E.V σ p.value) → (∀ g ∈ Expr.defsL es, defs g) →
    epost (evalElems fs file stack load es pairs d t) σ (fun x σ' => E.Goods σ x.1 σ')
  | [], pairs, d, t, σ, hI, hp, hd => by
    simp only [evalElems]
    exact epost_pure ⟨hI, E.refl σ, by simp⟩
  | e :: es, pairs, d, t, σ, hI, hp, hd => by
    simp only [Expr.defsL, List.mem_append] at hd
    simp only [evalElems]
    refine epost_bind (epost_mono (evalExpr_good e pairs d σ hI hp (fun g hg => hd g (.inl hg))) ?_)
    intro v τ hv
    cases hm : Ty.mostSpecific t v.getType with
    | none => exact epost_fail
    | some x =>
      obtain ⟨u, fl⟩ := x
      refine epost_bind (epost_mono (evalElems_good es pairs d u τ hv.1
        (fun p h => E.mono hI hv.1 hv.2.1 (hp p h)) (fun g hg => hd g (.inr hg))) ?_)
      rintro ⟨vs, u'⟩ υ hu
      refine epost_pure ⟨hu.1, E.trans hv.2.1 hu.2.1, ?_⟩
      intro w hw
      rcases List.mem_cons.1 hw with rfl | hw
      · exact E.mono hv.1 hu.1 hu.2.1 hv.2.2
      · exact hu.2.2 w hw
termination_by structural t => t
theorem evalItems_good : ∀ (es : List Expr) (pairs : List Pair) (d : Nat) (σ : GSt G), E.I σ →
    (∀ p ∈ pairs, E.V σ p.value) → (∀ g ∈ Expr.defsL es, defs g) →
    epost (evalItems fs file stack load es pairs d) σ (fun x σ' => E.Goods σ x σ')
  | [], pairs, d, σ, hI, hp, hd => by
    simp only [evalItems]
    exact epost_pure ⟨hI, E.refl σ, by simp⟩
  | e :: es, pairs, d, σ, hI, hp, hd => by
    simp only [Expr.defsL, List.mem_append] at hd
    simp only [evalItems]
    refine epost_bind (epost_mono (evalExpr_good e pairs d σ hI hp (fun g hg => hd g (.inl hg))) ?_)
    intro v τ hv
    refine epost_bind (epost_mono (evalItems_good es pairs d τ hv.1
      (fun p h => E.mono hI hv.1 hv.2.1 (hp p h)) (fun g hg => hd g (.inr hg))) ?_)
    rintro vs υ hu
    refine epost_pure ⟨hu.1, E.trans hv.2.1 hu.2.1, ?_⟩
    intro w hw
    rcases List.mem_cons.1 hw with rfl | hw
    · exact E.mono hv.1 hu.1 hu.2.1 hv.2.2
    · exact hu.2.2 w hw
termination_by structural t => t
theorem evalFields_good : ∀ (fds : List Field) (d : Nat) (pairs : List Pair) (parent : Option Obj) (σ : GSt G), E.I σ →
    (∀ p ∈ pairs, E.V σ p.value) → (∀ q, parent = some q → E.V σ (.obj q)) → (∀ g ∈ Field.defsL fds, defs g) →
    epost (evalFields fs file stack load fds d pairs parent) σ (E.GoodBody σ)
  | [], d, pairs, parent, σ, hI, hp, hq, hd => by
    simp only [evalFields]
    exact epost_pure ⟨hI, E.refl σ, hp, hq⟩
  | .mk tg e :: fds, d, pairs, parent, σ, hI, hp, hq, hd => by
    have hde : ∀ g ∈ e.defs, defs g := by
      intro g hg
      apply hd
      cases tg <;> simp [Field.defsL, hg]
    have hdf : ∀ g ∈ Field.defsL fds, defs g := by
      intro g hg
      apply hd
      cases tg <;> simp [Field.defsL, hg]
    have hchk : ∀ (st' : ESt), checkNew file pairs parent tg σ.1 = .ok ((), st') → st' = σ.1 ∧
        ∀ g, tg = .global g → StrMap.get σ.1.globals g = none := by
      intro st' h
      cases tg with
      | field f =>
        simp only [checkNew] at h
        split at h
        · cases h
        · cases h; exact ⟨rfl, by simp⟩
      | parent =>
        simp only [checkNew] at h
        split at h
        · cases h
        · cases h; exact ⟨rfl, by simp⟩
      | global g =>
        simp only [checkNew] at h
        split at h
        · cases h
        · rename_i hn
          cases h
          refine ⟨rfl, ?_⟩
          intro g' hg'
          cases hg'
          exact hn
    simp only [evalFields]
    refine epost_bind ?_
    rintro ⟨⟩ st1 hc
    obtain ⟨rfl, hnone⟩ := hchk st1 hc
    refine ⟨σ.2, epost_bind (epost_mono (evalExpr_good e pairs d σ hI hp hde) ?_)⟩
    intro v τ hv
    have hp' : ∀ p ∈ pairs, E.V τ p.value := fun p h => E.mono hI hv.1 hv.2.1 (hp p h)
    have hq' : ∀ q, parent = some q → E.V τ (.obj q) := fun q h => E.mono hI hv.1 hv.2.1 (hq q h)
    cases tg with
    | field f =>
      refine epost_mono (evalFields_good fds d (pairs ++ [.mk f v]) parent τ hv.1 ?_ hq' hdf)
        (fun _ _ h => ⟨h.1, E.trans hv.2.1 h.2.1, h.2.2⟩)
      intro p hp2
      rcases List.mem_append.1 hp2 with hp2 | hp2
      · exact hp' p hp2
      · rw [List.mem_singleton.1 hp2]; exact hv.2.2
    | global g =>
      have hdg : defs g := hd g (by simp [Field.defsL])
      obtain ⟨h1, h2, h3⟩ := E.setGlobal hdg hI (hnone g rfl) hv.1 hv.2.1 hv.2.2
      refine epost_bind ?_
      rintro ⟨⟩ st2 hs
      cases hs
      refine ⟨τ.2, ?_⟩
      exact epost_mono (evalFields_good fds d pairs parent (τ.1.define g v, τ.2) h1
        (fun p hp2 => h3 _ (hp' p hp2)) (fun q hq2 => h3 _ (hq' q hq2)) hdf)
        (fun _ _ h => ⟨h.1, E.trans h2 h.2.1, h.2.2⟩)
    | parent =>
      cases v with
      | obj o =>
        refine epost_mono (evalFields_good fds d pairs (some o) τ hv.1 hp' ?_ hdf)
          (fun _ _ h => ⟨h.1, E.trans hv.2.1 h.2.1, h.2.2⟩)
        intro q hq2
        cases hq2
        exact hv.2.2
      | _ => exact epost_fail
termination_by structural t => t
end

theorem evalDoc_good (d : List Field) (σ : GSt G) (hI : E.I σ) (hd : ∀ g ∈ Field.defsL d, defs g) :
    epost (evalDoc fs file stack load d) σ (fun o σ' => E.Good σ (.obj o) σ') := by
  unfold evalDoc
  refine epost_bind (epost_mono (E.evalFields_good hinc d 1 [] none σ hI (by simp) (by simp) hd) ?_)
  rintro ⟨ps, par⟩ τ hv v st' hv'
  obtain ⟨g, h1, h2, h3⟩ := E.newObj ps par hv.1 hv.2.2.1 hv.2.2.2
  cases hv'
  exact ⟨g, h1, E.trans hv.2.1 h2, h3⟩

theorem evalArrFile_good (es : List Expr) (σ : GSt G) (hI : E.I σ) (hd : ∀ g ∈ Expr.defsL es, defs g) :
    epost (evalArrFile fs file stack load es) σ (E.Good σ) := by
  unfold evalArrFile
  refine epost_bind (epost_mono (E.evalElems_good hinc es [] 1 .any σ hI (by simp) hd) ?_)
  rintro ⟨vs, t⟩ τ hv v st' hv'
  obtain ⟨g, h1, h2, h3⟩ := E.newArr t vs hv.1 hv.2.2
  cases hv'
  exact ⟨g, h1, E.trans hv.2.1 h2, h3⟩

theorem evalTupFile_good (es : List Expr) (σ : GSt G) (hI : E.I σ) (hd : ∀ g ∈ Expr.defsL es, defs g) :
    epost (evalTupFile fs file stack load es) σ (E.Good σ) := by
  unfold evalTupFile
  refine epost_bind (epost_mono (E.evalItems_good hinc es [] 1 σ hI (by simp) hd) ?_)
  rintro vs τ hv v st' hv'
  obtain ⟨g, h1, h2, h3⟩ := E.newTup (vs.map Value.getType) vs hv.1 hv.2.2
  cases hv'
  exact ⟨g, h1, E.trans hv.2.1 h2, h3⟩

end

/-- What must be shown in addition to go through includes. -/
structure Files (E : EvalInv G (fun _ => True)) : Prop where
  /-- entering a file -/
  enter : ∀ {σ}, E.I σ → E.I ({ σ.1 with globals := [] }, σ.2)
  /-- leaving it -/
  leave : ∀ {σ τ : GSt G}, E.I σ → E.I τ → E.R ({ σ.1 with globals := [] }, σ.2) τ →
    E.I ({ τ.1 with globals := σ.1.globals }, τ.2) ∧ E.R σ ({ τ.1 with globals := σ.1.globals }, τ.2) ∧
      ∀ v, E.V τ v → E.V ({ τ.1 with globals := σ.1.globals }, τ.2) v
  /-- remembering its value -/
  store : ∀ {σ full v}, E.I σ → E.V σ v →
    E.I ({ σ.1 with cache := StrMap.insert σ.1.cache full v }, σ.2) ∧
    E.R σ ({ σ.1 with cache := StrMap.insert σ.1.cache full v }, σ.2) ∧
    E.V ({ σ.1 with cache := StrMap.insert σ.1.cache full v }, σ.2) v
  /-- reusing it -/
  reuse : ∀ {σ full v}, E.I σ → StrMap.get σ.1.cache full = some v → E.V σ v

theorem ownGlobals_good {E : EvalInv G (fun _ => True)} (F : E.Files) {σ : GSt G} (hI : E.I σ) {m : EM Value}
    (h : ∀ τ, E.I τ → epost m τ (E.Good τ)) : epost (EM.ownGlobals m) σ (E.Good σ) := by
  intro v st' hv
  unfold EM.ownGlobals at hv
  cases hm : m { σ.1 with globals := [] } with
  | error e => rw [hm] at hv; cases hv
  | ok x =>
    obtain ⟨a, st1⟩ := x
    rw [hm] at hv
    cases hv
    obtain ⟨g, h1, h2, h3⟩ := h _ (F.enter hI) _ _ hm
    obtain ⟨h4, h5, h6⟩ := F.leave hI h1 h2
    exact ⟨g, h4, h5, h6 _ h3⟩

/-- What `evalInclude` needs of the loader. -/
theorem includes_of_load {E : EvalInv G (fun _ => True)} (F : E.Files) {fs : FS} {file : Option Str} {stack : List Str}
    {load : Loader} (h : ∀ stack kind path (σ : GSt G), E.I σ → epost (load stack kind path) σ (E.Good σ)) :
    E.Includes fs file stack load := by
  intro kind p σ hI
  unfold evalInclude
  extract_lets path
  generalize path = path
  split
  · exact epost_fail
  refine epost_ite (fun _ => epost_fail) (fun _ => epost_ite (fun _ => epost_fail) (fun _ => ?_))
  · intro v st' hv
    simp only [] at hv
    split at hv
    · rename_i w hw
      cases hv
      exact ⟨σ.2, hI, E.refl σ, F.reuse hI hw⟩
    · split at hv
      · rename_i a st1 hl
        cases hv
        obtain ⟨g, h1, h2, h3⟩ := h _ _ _ σ hI _ _ hl
        obtain ⟨h4, h5, h6⟩ := F.store h1 h3
        exact ⟨g, h4, E.trans h2 h5, h6⟩
      · cases hv

theorem loadN_good [Unicode] {E : EvalInv G (fun _ => True)} (F : E.Files) (fs : FS) : ∀ n stack kind path (σ : GSt G),
    E.I σ → epost (loadN fs n stack kind path) σ (E.Good σ)
  | 0, stack, kind, path, σ, hI => by
    intro v st' hv
    simp only [loadN] at hv
    cases hv
  | n + 1, stack, kind, path, σ, hI => by
    have hinc : ∀ (file : Option Str) (stack : List Str), E.Includes fs file stack (loadN fs n) :=
      fun file stack => includes_of_load F (loadN_good F fs n)
    have bad : ∀ e, epost (fun _ => .error e : EM Value) σ (E.Good σ) := by
      intro e v st' hv; cases hv
    simp only [loadN]
    split
    · exact bad _
    · rename_i text htext
      cases kind with
      | str => exact E.scalar_good hI (E.str _ _)
      | obj =>
        refine epost_dite (fun hx => ?_) (fun _ => bad _)
        refine ownGlobals_good F hI ?_
        intro τ hτ
        refine epost_bind (epost_mono (E.evalDoc_good (hinc _ _) _ τ hτ (fun _ _ => trivial)) ?_)
        intro o υ ho
        exact epost_pure ho
      | arr =>
        refine epost_dite (fun hx => ?_) (fun _ => bad _)
        exact ownGlobals_good F hI (fun τ hτ => E.evalArrFile_good (hinc _ _) _ τ hτ (fun _ _ => trivial))
      | tup =>
        refine epost_dite (fun hx => ?_) (fun _ => bad _)
        exact ownGlobals_good F hI (fun τ hτ => E.evalTupFile_good (hinc _ _) _ τ hτ (fun _ _ => trivial))

end EvalInv

end Over
