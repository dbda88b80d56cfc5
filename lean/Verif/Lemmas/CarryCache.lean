import Verif.Lemmas.Carry

/-! # Evaluation with more files remembered

An evaluation that succeeds also succeeds, with the same result, when the values of other files, which it does not need,
are remembered from earlier includes.
-/

set_option linter.unusedSectionVars false

namespace Over

/-- The state with more remembered files. -/
def ESt.over (C : StrMap Value) (st : ESt) : ESt := { st with cache := st.cache ++ C }

/-- Whatever `m` returns, `m'` returns when also the files in `C` are remembered. -/
def CarriesOver (C : StrMap Value) {α : Type} (m m' : EM α) : Prop :=
  ∀ st a st', m st = .ok (a, st') → m' (st.over C) = .ok (a, st'.over C)

variable {C : StrMap Value}

section
variable {α β : Type}

theorem CarriesOver.pure (a : α) : CarriesOver C (pure a : EM α) (pure a) := by
  intro st b st' h
  cases h
  rfl

theorem CarriesOver.bind {m m' : EM α} {f f' : α → EM β} (h : CarriesOver C m m') (hf : ∀ a, CarriesOver C (f a) (f' a)) :
    CarriesOver C (m >>= f) (m' >>= f') := by
  intro st b st' hb
  cases hm : m st with
  | error e => rw [EM.bind_err hm] at hb; cases hb
  | ok x =>
    obtain ⟨a, st1⟩ := x
    rw [EM.bind_ok hm] at hb
    rw [EM.bind_ok (h _ _ _ hm)]
    exact hf a _ _ _ hb

theorem CarriesOver.fail {m : EM α} {file : Option Str} {k : SemKind} : CarriesOver C (EM.fail file k) m := by
  intro st a st' h; cases h

theorem CarriesOver.error {m : EM α} {e : SemErr} : CarriesOver C (fun _ => .error e) m := by
  intro st a st' h; cases h

theorem CarriesOver.ite {c : Prop} [Decidable c] {a b a' b' : EM α} (h1 : CarriesOver C a a') (h2 : CarriesOver C b b') :
    CarriesOver C (if c then a else b) (if c then a' else b') := by
  by_cases h : c
  · rw [if_pos h, if_pos h]; exact h1
  · rw [if_neg h, if_neg h]; exact h2

end

theorem CarriesOver.fresh : CarriesOver C EM.fresh EM.fresh := by
  intro st b st' h
  cases h
  rfl

theorem CarriesOver.keyword (k : IncKind) : CarriesOver C (EM.keywordId k) (EM.keywordId k) := by
  intro st i st' h
  cases k <;>
  · simp only [EM.keywordId, ESt.over] at h ⊢
    split at h <;> cases h <;> simp_all

theorem CarriesOver.setGlobal (g : Str) (v : Value) : CarriesOver C (setGlobal g v) (setGlobal g v) := by
  intro st b st' h
  cases h
  rfl

/-- Actions that do not look at the remembered files. -/
macro "framed" : tactic => `(tactic| repeat' first
  | exact CarriesOver.pure _ | exact CarriesOver.fresh | exact CarriesOver.keyword _ | exact CarriesOver.setGlobal _ _
  | (refine CarriesOver.bind ?_ fun _ => ?_))

theorem over_applyBin (f f' : Option Str) (op : BinOp) (a b : Value) : CarriesOver C (applyBin f op a b) (applyBin f' op a b) := by
  unfold applyBin
  cases binSem op a b with
  | val v => exact (by framed)
  | newArr t vs => exact (by framed)
  | bad t1 t2 => exact .fail
  | divisionByZero => exact .fail

theorem over_applyUn (f f' : Option Str) (op : UnOp) (a : Value) : CarriesOver C (applyUn f op a) (applyUn f' op a) := by
  cases op <;> cases a <;> first | exact .fail | exact .pure _

theorem over_sumLeft (f f' : Option Str) : ∀ (l : List (BinOp × Value)) (v : Value),
    CarriesOver C (sumLeft f v l) (sumLeft f' v l)
  | [], v => (by framed)
  | (op, w) :: r, v => by
    simp only [sumLeft]
    exact .bind (over_applyBin f f' op v w) (fun u => over_sumLeft f f' r u)

theorem over_evalName (f f' : Option Str) (ps : List Pair) (x : Str) : CarriesOver C (evalName f ps x) (evalName f' ps x) := by
  unfold evalName
  refine .ite ((by framed)) (.ite ((by framed)) (.ite ((by framed)) (.ite ((by framed)) (.ite ((by framed)) (.ite ((by framed)) (.ite ((by framed))
    (.ite .fail (.ite ?_ ?_))))))))
  · intro st a st' h
    simp only [evalGlobal, ESt.over] at h ⊢
    cases hg : StrMap.get st.globals x with
    | none => rw [hg] at h; cases h
    | some v => rw [hg] at h; cases h; rfl
  · cases ps.find? (fun p => p.field == x) with
    | none => exact .fail
    | some p => exact (by framed)

theorem over_evalIndex (f f' : Option Str) (oob : Nat → OverError) (vs : List Value) (i : Value) :
    CarriesOver C (evalIndex f oob vs i) (evalIndex f' oob vs i) := by
  cases i with
  | int i =>
    simp only [evalIndex]
    refine .ite ?_ .fail
    cases vs[i.toNat]? with
    | none => exact .fail
    | some v => exact (by framed)
  | _ => exact .fail

theorem over_depthCheck (f f' : Option Str) {d d' : Nat} (h : d' ≤ d) : CarriesOver C (depthCheck f d) (depthCheck f' d') := by
  unfold depthCheck
  by_cases h1 : d > 64
  · rw [if_pos h1]; exact .fail
  · rw [if_neg h1, if_neg (by omega)]; exact (by framed)

theorem over_evalKeyword (f f' : Option Str) (v : Value) : CarriesOver C (evalKeyword f v) (evalKeyword f' v) := by
  cases v with
  | obj o =>
    simp only [evalKeyword]
    exact .bind ((by framed)) fun _ => .ite ((by framed)) (.bind ((by framed)) fun _ => .ite ((by framed)) (.bind ((by framed)) fun _ =>
      .ite ((by framed)) (.bind ((by framed)) fun _ => .ite ((by framed)) .fail)))
  | str s => exact (by framed)
  | _ => exact .fail

theorem over_checkNew (f f' : Option Str) (ps : List Pair) (par : Option Obj) (tg : Target) :
    CarriesOver C (checkNew f ps par tg) (checkNew f' ps par tg) := by
  cases tg with
  | field n => simp only [checkNew]; exact .ite .fail ((by framed))
  | parent => simp only [checkNew]; exact .ite .fail ((by framed))
  | global g =>
    intro st a st' h
    simp only [checkNew, ESt.over] at h ⊢
    cases hg : StrMap.get st.globals g with
    | some v => rw [hg] at h; cases h
    | none => rw [hg] at h; cases h; rfl

section
variable {fs fs' : FS} {file file' : Option Str} {stack stack' : List Str} {load load' : Loader}
variable (hinc : ∀ kind p, CarriesOver C (evalInclude fs file stack load kind p) (evalInclude fs' file' stack' load' kind p))
include hinc

mutual
theorem over_evalTerm : ∀ (t : Term) (ps : List Pair) {d d' : Nat}, d' ≤ d →
    CarriesOver C (evalTerm fs file stack load t ps d) (evalTerm fs' file' stack' load' t ps d')
  | .str s, ps, d, d', h => by simp only [evalTerm]; exact (by framed)
  | .int s, ps, d, d', h => by simp only [evalTerm]; exact (by framed)
  | .frac s, ps, d, d', h => by simp only [evalTerm]; exact (by framed)
  | .name x, ps, d, d', h => by simp only [evalTerm]; exact over_evalName _ _ _ _
  | .dot x t, ps, d, d', h => by
    simp only [evalTerm]
    refine .bind (over_evalName _ _ _ _) fun v => ?_
    cases v with
    | arr i ty vs => exact .bind (over_evalTerm t ps (by omega)) fun i => over_evalIndex _ _ _ _ _
    | tup i ty vs => exact .bind (over_evalTerm t ps (by omega)) fun i => over_evalIndex _ _ _ _ _
    | obj o => exact .ite .fail (.ite .fail (over_evalTerm t o.pairs (by omega)))
    | _ => exact .fail
  | .neg t, ps, d, d', h => by
    simp only [evalTerm]; exact .bind (over_evalTerm t ps (by omega)) fun v => over_applyUn _ _ _ _
  | .pos t, ps, d, d', h => by
    simp only [evalTerm]; exact .bind (over_evalTerm t ps (by omega)) fun v => over_applyUn _ _ _ _
  | .arr es, ps, d, d', h => by
    simp only [evalTerm]
    exact .bind (over_depthCheck _ _ (by omega)) fun _ => .bind (over_evalElems es ps .any (by omega)) fun x => (by framed)
  | .tup es, ps, d, d', h => by
    simp only [evalTerm]
    exact .bind (over_depthCheck _ _ (by omega)) fun _ => .bind (over_evalItems es ps (by omega)) fun x => (by framed)
  | .obj fds, ps, d, d', h => by
    simp only [evalTerm]
    exact .bind (over_depthCheck _ _ (by omega)) fun _ => .bind (over_evalFields fds [] none (by omega)) fun x => (by framed)
  | .incl e, ps, d, d', h => by
    simp only [evalTerm]
    refine .bind (over_depthCheck _ _ (by omega)) fun _ => .bind (over_evalExpr e ps (by omega)) fun v =>
      .bind (over_evalKeyword _ _ _) fun k => ?_
    cases k with
    | some k => exact .fail
    | none =>
      cases v with
      | str p => exact hinc _ _
      | _ => exact .fail
  | .inclAs k e, ps, d, d', h => by
    simp only [evalTerm]
    refine .bind (over_depthCheck _ _ (by omega)) fun _ => .bind (over_evalExpr k ps (by omega)) fun v =>
      .bind (over_evalKeyword _ _ _) fun k => ?_
    cases k with
    | none => exact .fail
    | some k =>
      refine .bind (over_evalExpr e ps (by omega)) fun v => ?_
      cases v with
      | str p => exact hinc _ _
      | _ => exact .fail
termination_by structural t => t
theorem over_evalExpr : ∀ (e : Expr) (ps : List Pair) {d d' : Nat}, d' ≤ d →
    CarriesOver C (evalExpr fs file stack load e ps d) (evalExpr fs' file' stack' load' e ps d')
  | .mk t r, ps, d, d', h => by
    simp only [evalExpr]
    exact .bind (over_evalTerm t ps h) fun v => .bind (over_evalChain r v ps h) fun x => over_sumLeft _ _ _ _
termination_by structural t => t
theorem over_evalChain : ∀ (r : List OpTerm) (v : Value) (ps : List Pair) {d d' : Nat}, d' ≤ d →
    CarriesOver C (evalChain fs file stack load r v ps d) (evalChain fs' file' stack' load' r v ps d')
  | [], v, ps, d, d', h => by simp only [evalChain]; exact (by framed)
  | .mk op t :: r, v, ps, d, d', h => by
    simp only [evalChain]
    refine .bind (over_evalTerm t ps h) fun w => .ite ?_ ?_
    · exact .bind (over_applyBin _ _ _ _ _) fun u => over_evalChain r u ps h
    · exact .bind (over_evalChain r w ps h) fun x => (by framed)
termination_by structural t => t
theorem over_evalElems : ∀ (es : List Expr) (ps : List Pair) (t : Ty) {d d' : Nat}, d' ≤ d →
    CarriesOver C (evalElems fs file stack load es ps d t) (evalElems fs' file' stack' load' es ps d' t)
  | [], ps, t, d, d', h => by simp only [evalElems]; exact (by framed)
  | e :: es, ps, t, d, d', h => by
    simp only [evalElems]
    refine .bind (over_evalExpr e ps h) fun v => ?_
    cases Ty.mostSpecific t v.getType with
    | none => exact .fail
    | some x => exact .bind (over_evalElems es ps x.1 h) fun x => (by framed)
termination_by structural t => t
theorem over_evalItems : ∀ (es : List Expr) (ps : List Pair) {d d' : Nat}, d' ≤ d →
    CarriesOver C (evalItems fs file stack load es ps d) (evalItems fs' file' stack' load' es ps d')
  | [], ps, d, d', h => by simp only [evalItems]; exact (by framed)
  | e :: es, ps, d, d', h => by
    simp only [evalItems]
    exact .bind (over_evalExpr e ps h) fun v => .bind (over_evalItems es ps h) fun x => (by framed)
termination_by structural t => t
theorem over_evalFields : ∀ (fds : List Field) (ps : List Pair) (par : Option Obj) {d d' : Nat}, d' ≤ d →
    CarriesOver C (evalFields fs file stack load fds d ps par) (evalFields fs' file' stack' load' fds d' ps par)
  | [], ps, par, d, d', h => by simp only [evalFields]; exact (by framed)
  | .mk tg e :: fds, ps, par, d, d', h => by
    simp only [evalFields]
    refine .bind (over_checkNew _ _ _ _ _) fun _ => .bind (over_evalExpr e ps h) fun v => ?_
    cases tg with
    | field f => exact over_evalFields fds _ _ h
    | global g => exact .bind ((by framed)) fun _ => over_evalFields fds _ _ h
    | parent =>
      cases v with
      | obj o => exact over_evalFields fds _ _ h
      | _ => exact .fail
termination_by structural t => t
end

theorem over_evalDoc (d : List Field) : CarriesOver C (evalDoc fs file stack load d) (evalDoc fs' file' stack' load' d) := by
  unfold evalDoc
  exact .bind (over_evalFields hinc d [] none (Nat.le_refl _)) fun _ => (by framed)

theorem over_evalArrFile (es : List Expr) :
    CarriesOver C (evalArrFile fs file stack load es) (evalArrFile fs' file' stack' load' es) := by
  unfold evalArrFile
  exact .bind (over_evalElems hinc es [] .any (Nat.le_refl _)) fun _ => (by framed)

theorem over_evalTupFile (es : List Expr) :
    CarriesOver C (evalTupFile fs file stack load es) (evalTupFile fs' file' stack' load' es) := by
  unfold evalTupFile
  exact .bind (over_evalItems hinc es [] (Nat.le_refl _)) fun _ => (by framed)

end

theorem CarriesOver.own {m m' : EM Value} (h : CarriesOver C m m') : CarriesOver C (EM.ownGlobals m) (EM.ownGlobals m') := by
  intro st v st' hv
  unfold EM.ownGlobals at hv ⊢
  cases hm : m { st with globals := [] } with
  | error e => rw [hm] at hv; cases hv
  | ok x =>
    obtain ⟨a, st1⟩ := x
    rw [hm] at hv
    have h1 := h _ _ _ hm
    simp only [ESt.over] at h1 ⊢
    rw [h1]
    cases hv
    rfl


theorem StrMap.get_append {α : Type} (a b : StrMap α) (k : Str) :
    StrMap.get (a ++ b) k = (StrMap.get a k).or (StrMap.get b k) := by
  unfold StrMap.get
  rw [List.find?_append]
  cases List.find? (fun e => e.1 == k) a <;> rfl

theorem over_include {fs fs' : FS} (hs : fs.Sub fs') (hC : ∀ path F, Leads fs path F → StrMap.get C F = none)
    {file : Option Str} {stack stack' : List Str} (hst : ∀ path F, Leads fs path F → F ∈ stack' → F ∈ stack) {load load' : Loader}
    (hl : ∀ path F kind, Leads fs path F → CarriesOver C (load (F :: stack) kind path) (load' (F :: stack') kind path)) (kind : IncKind)
    (p : Str) : CarriesOver C (evalInclude fs file stack load kind p) (evalInclude fs' file stack' load' kind p) := by
  intro st v st' h
  obtain ⟨F, h1, h2, h3⟩ := evalInclude_ok h
  have h1' := hs.leads _ _ h1
  rw [evalInclude_leads h1', if_neg (fun h => h2 (hst _ _ h1 h))]
  unfold evalCached at h3 ⊢
  have hg : StrMap.get (st.over C).cache F = StrMap.get st.cache F := by
    simp only [ESt.over, StrMap.get_append, hC _ _ h1, Option.or_none]
  cases hc : StrMap.get st.cache F with
  | some w => simp only [hg, hc] at h3 ⊢; cases h3; rfl
  | none =>
    simp only [hg, hc] at h3 ⊢
    cases hld : load (F :: stack) kind (meantIn file p) st with
    | error e => rw [hld] at h3; cases h3
    | ok x =>
      obtain ⟨w, st1⟩ := x
      rw [hld] at h3
      rw [hl _ _ _ h1 _ _ _ hld]
      cases h3
      rfl

theorem over_loadN [Unicode] {fs fs' : FS} (hs : fs.Sub fs') (hC : ∀ path F, Leads fs path F → StrMap.get C F = none) :
    ∀ {n m : Nat}, n ≤ m → ∀ stack stack', (∀ path F, Leads fs path F → F ∈ stack' → F ∈ stack) → ∀ kind path F,
    Leads fs path F → CarriesOver C (loadN fs n stack kind path) (loadN fs' m stack' kind path)
  | 0, _, _, stack, stack', _, kind, path, F, _ => by
    intro st v st' h
    simp only [loadN] at h
    cases h
  | n + 1, 0, hnm, _, _, _, _, _, _, _ => by omega
  | n + 1, m + 1, hnm, stack, stack', hst, kind, path, F, hF => by
    have ih := over_loadN hs hC (n := n) (m := m) (by omega)
    have hinc : ∀ file kind p, CarriesOver C (evalInclude fs file stack (loadN fs n) kind p)
        (evalInclude fs' file stack' (loadN fs' m) kind p) :=
      fun file kind p => over_include hs hC hst (fun q G k hG => ih _ _ (fun path F h1 h2 => by
        rcases List.mem_cons.1 h2 with h2 | h2
        · exact h2 ▸ List.mem_cons_self
        · exact List.mem_cons_of_mem _ (hst _ _ h1 h2)) _ _ _ hG) kind p
    cases htext : fs.read path with
    | error msg => rw [loadN_io htext]; exact .error
    | ok text =>
      have htext' : fs'.read path = .ok text := by rw [hs.read path F hF]; exact htext
      by_cases hx : FileText kind text
      swap
      · rw [loadN_malformed htext n stack hx]; exact .error
      cases kind with
      | str => rw [loadN_str htext, loadN_str htext']; exact .pure _
      | obj =>
        rw [loadN_obj htext n stack hx, loadN_obj htext' m stack' hx]
        exact .own (.bind (over_evalDoc (hinc _) _) fun _ => .pure _)
      | arr =>
        rw [loadN_arr htext n stack hx, loadN_arr htext' m stack' hx]
        exact .own (over_evalArrFile (hinc _) _)
      | tup =>
        rw [loadN_tup htext n stack hx, loadN_tup htext' m stack' hx]
        exact .own (over_evalTupFile (hinc _) _)

end Over
