import Verif.Lemmas.Paths
import Verif.Lemmas.Cache

/-! # From one evaluation to another

An evaluation that succeeds also succeeds, with the same result, in any other surroundings in which its includes do.
-/

set_option linter.unusedSectionVars false

namespace Over

/-- Whatever `m` returns, `m'` returns too. -/
def Carries {α : Type} (m m' : EM α) : Prop := ∀ st a st', m st = .ok (a, st') → m' st = .ok (a, st')

section
variable {α β : Type}

theorem Carries.refl (m : EM α) : Carries m m := fun _ _ _ h => h

theorem Carries.bind {m m' : EM α} {f f' : α → EM β} (h : Carries m m') (hf : ∀ a, Carries (f a) (f' a)) :
    Carries (m >>= f) (m' >>= f') := by
  intro st b st' hb
  cases hm : m st with
  | error e => rw [EM.bind_err hm] at hb; cases hb
  | ok x =>
    obtain ⟨a, st1⟩ := x
    rw [EM.bind_ok hm] at hb
    rw [EM.bind_ok (h _ _ _ hm)]
    exact hf a _ _ _ hb

theorem Carries.fail {m : EM α} {file : Option Str} {k : SemKind} : Carries (EM.fail file k) m := by
  intro st a st' h; cases h

theorem Carries.error {m : EM α} {e : SemErr} : Carries (fun _ => .error e) m := by
  intro st a st' h; cases h

theorem Carries.ite {c : Prop} [Decidable c] {a b a' b' : EM α} (h1 : Carries a a') (h2 : Carries b b') :
    Carries (if c then a else b) (if c then a' else b') := by
  by_cases h : c
  · rw [if_pos h, if_pos h]; exact h1
  · rw [if_neg h, if_neg h]; exact h2

end

theorem carries_applyBin (f f' : Option Str) (op : BinOp) (a b : Value) : Carries (applyBin f op a b) (applyBin f' op a b) := by
  unfold applyBin
  cases binSem op a b with
  | val v => exact .refl _
  | newArr t vs => exact .refl _
  | bad t1 t2 => exact .fail
  | divisionByZero => exact .fail

theorem carries_applyUn (f f' : Option Str) (op : UnOp) (a : Value) : Carries (applyUn f op a) (applyUn f' op a) := by
  cases op <;> cases a <;> first | exact .refl _ | exact .fail

theorem carries_sumLeft (f f' : Option Str) : ∀ (l : List (BinOp × Value)) (v : Value),
    Carries (sumLeft f v l) (sumLeft f' v l)
  | [], v => .refl _
  | (op, w) :: r, v => by
    simp only [sumLeft]
    exact .bind (carries_applyBin f f' op v w) (fun u => carries_sumLeft f f' r u)

theorem carries_evalName (f f' : Option Str) (ps : List Pair) (x : Str) : Carries (evalName f ps x) (evalName f' ps x) := by
  unfold evalName
  refine .ite (.refl _) (.ite (.refl _) (.ite (.refl _) (.ite (.refl _) (.ite (.refl _) (.ite (.refl _) (.ite (.refl _)
    (.ite .fail (.ite ?_ ?_))))))))
  · intro st a st' h
    simp only [evalGlobal] at h ⊢
    cases hg : StrMap.get st.globals x with
    | none => rw [hg] at h; cases h
    | some v => rw [hg] at h; exact h
  · cases ps.find? (fun p => p.field == x) with
    | none => exact .fail
    | some p => exact .refl _

theorem carries_evalIndex (f f' : Option Str) (oob : Nat → OverError) (vs : List Value) (i : Value) :
    Carries (evalIndex f oob vs i) (evalIndex f' oob vs i) := by
  cases i with
  | int i =>
    simp only [evalIndex]
    refine .ite ?_ .fail
    cases vs[i.toNat]? with
    | none => exact .fail
    | some v => exact .refl _
  | _ => exact .fail

theorem carries_depthCheck (f f' : Option Str) {d d' : Nat} (h : d' ≤ d) : Carries (depthCheck f d) (depthCheck f' d') := by
  unfold depthCheck
  by_cases h1 : d > 64
  · rw [if_pos h1]; exact .fail
  · rw [if_neg h1, if_neg (by omega)]; exact .refl _

theorem carries_evalKeyword (f f' : Option Str) (v : Value) : Carries (evalKeyword f v) (evalKeyword f' v) := by
  cases v with
  | obj o =>
    simp only [evalKeyword]
    exact .bind (.refl _) fun _ => .ite (.refl _) (.bind (.refl _) fun _ => .ite (.refl _) (.bind (.refl _) fun _ =>
      .ite (.refl _) (.bind (.refl _) fun _ => .ite (.refl _) .fail)))
  | str s => exact .refl _
  | _ => exact .fail

theorem carries_checkNew (f f' : Option Str) (ps : List Pair) (par : Option Obj) (tg : Target) :
    Carries (checkNew f ps par tg) (checkNew f' ps par tg) := by
  cases tg with
  | field n => simp only [checkNew]; exact .ite .fail (.refl _)
  | parent => simp only [checkNew]; exact .ite .fail (.refl _)
  | global g =>
    intro st a st' h
    simp only [checkNew] at h ⊢
    cases hg : StrMap.get st.globals g with
    | some v => rw [hg] at h; cases h
    | none => rw [hg] at h; exact h

section
variable {fs fs' : FS} {file file' : Option Str} {stack stack' : List Str} {load load' : Loader}
variable (hinc : ∀ kind p, Carries (evalInclude fs file stack load kind p) (evalInclude fs' file' stack' load' kind p))
include hinc

mutual
theorem carries_evalTerm : ∀ (t : Term) (ps : List Pair) {d d' : Nat}, d' ≤ d →
    Carries (evalTerm fs file stack load t ps d) (evalTerm fs' file' stack' load' t ps d')
  | .str s, ps, d, d', h => by simp only [evalTerm]; exact .refl _
  | .int s, ps, d, d', h => by simp only [evalTerm]; exact .refl _
  | .frac s, ps, d, d', h => by simp only [evalTerm]; exact .refl _
  | .name x, ps, d, d', h => by simp only [evalTerm]; exact carries_evalName _ _ _ _
  | .dot x t, ps, d, d', h => by
    simp only [evalTerm]
    refine .bind (carries_evalName _ _ _ _) fun v => ?_
    cases v with
    | arr i ty vs => exact .bind (carries_evalTerm t ps (by omega)) fun i => carries_evalIndex _ _ _ _ _
    | tup i ty vs => exact .bind (carries_evalTerm t ps (by omega)) fun i => carries_evalIndex _ _ _ _ _
    | obj o => exact .ite .fail (.ite .fail (carries_evalTerm t o.pairs (by omega)))
    | _ => exact .fail
  | .neg t, ps, d, d', h => by
    simp only [evalTerm]; exact .bind (carries_evalTerm t ps (by omega)) fun v => carries_applyUn _ _ _ _
  | .pos t, ps, d, d', h => by
    simp only [evalTerm]; exact .bind (carries_evalTerm t ps (by omega)) fun v => carries_applyUn _ _ _ _
  | .arr es, ps, d, d', h => by
    simp only [evalTerm]
    exact .bind (carries_depthCheck _ _ (by omega)) fun _ => .bind (carries_evalElems es ps .any (by omega)) fun x => .refl _
  | .tup es, ps, d, d', h => by
    simp only [evalTerm]
    exact .bind (carries_depthCheck _ _ (by omega)) fun _ => .bind (carries_evalItems es ps (by omega)) fun x => .refl _
  | .obj fds, ps, d, d', h => by
    simp only [evalTerm]
    exact .bind (carries_depthCheck _ _ (by omega)) fun _ => .bind (carries_evalFields fds [] none (by omega)) fun x => .refl _
  | .incl e, ps, d, d', h => by
    simp only [evalTerm]
    refine .bind (carries_depthCheck _ _ (by omega)) fun _ => .bind (carries_evalExpr e ps (by omega)) fun v =>
      .bind (carries_evalKeyword _ _ _) fun k => ?_
    cases k with
    | some k => exact .fail
    | none =>
      cases v with
      | str p => exact hinc _ _
      | _ => exact .fail
  | .inclAs k e, ps, d, d', h => by
    simp only [evalTerm]
    refine .bind (carries_depthCheck _ _ (by omega)) fun _ => .bind (carries_evalExpr k ps (by omega)) fun v =>
      .bind (carries_evalKeyword _ _ _) fun k => ?_
    cases k with
    | none => exact .fail
    | some k =>
      refine .bind (carries_evalExpr e ps (by omega)) fun v => ?_
      cases v with
      | str p => exact hinc _ _
      | _ => exact .fail
termination_by structural t => t
theorem carries_evalExpr : ∀ (e : Expr) (ps : List Pair) {d d' : Nat}, d' ≤ d →
    Carries (evalExpr fs file stack load e ps d) (evalExpr fs' file' stack' load' e ps d')
  | .mk t r, ps, d, d', h => by
    simp only [evalExpr]
    exact .bind (carries_evalTerm t ps h) fun v => .bind (carries_evalChain r v ps h) fun x => carries_sumLeft _ _ _ _
termination_by structural t => t
theorem carries_evalChain : ∀ (r : List OpTerm) (v : Value) (ps : List Pair) {d d' : Nat}, d' ≤ d →
    Carries (evalChain fs file stack load r v ps d) (evalChain fs' file' stack' load' r v ps d')
  | [], v, ps, d, d', h => by simp only [evalChain]; exact .refl _
  | .mk op t :: r, v, ps, d, d', h => by
    simp only [evalChain]
    refine .bind (carries_evalTerm t ps h) fun w => .ite ?_ ?_
    · exact .bind (carries_applyBin _ _ _ _ _) fun u => carries_evalChain r u ps h
    · exact .bind (carries_evalChain r w ps h) fun x => .refl _
termination_by structural t => t
theorem carries_evalElems : ∀ (es : List Expr) (ps : List Pair) (t : Ty) {d d' : Nat}, d' ≤ d →
    Carries (evalElems fs file stack load es ps d t) (evalElems fs' file' stack' load' es ps d' t)
  | [], ps, t, d, d', h => by simp only [evalElems]; exact .refl _
  | e :: es, ps, t, d, d', h => by
    simp only [evalElems]
    refine .bind (carries_evalExpr e ps h) fun v => ?_
    cases Ty.mostSpecific t v.getType with
    | none => exact .fail
    | some x => exact .bind (carries_evalElems es ps x.1 h) fun x => .refl _
termination_by structural t => t
theorem carries_evalItems : ∀ (es : List Expr) (ps : List Pair) {d d' : Nat}, d' ≤ d →
    Carries (evalItems fs file stack load es ps d) (evalItems fs' file' stack' load' es ps d')
  | [], ps, d, d', h => by simp only [evalItems]; exact .refl _
  | e :: es, ps, d, d', h => by
    simp only [evalItems]
    exact .bind (carries_evalExpr e ps h) fun v => .bind (carries_evalItems es ps h) fun x => .refl _
termination_by structural t => t
theorem carries_evalFields : ∀ (fds : List Field) (ps : List Pair) (par : Option Obj) {d d' : Nat}, d' ≤ d →
    Carries (evalFields fs file stack load fds d ps par) (evalFields fs' file' stack' load' fds d' ps par)
  | [], ps, par, d, d', h => by simp only [evalFields]; exact .refl _
  | .mk tg e :: fds, ps, par, d, d', h => by
    simp only [evalFields]
    refine .bind (carries_checkNew _ _ _ _ _) fun _ => .bind (carries_evalExpr e ps h) fun v => ?_
    cases tg with
    | field f => exact carries_evalFields fds _ _ h
    | global g => exact .bind (.refl _) fun _ => carries_evalFields fds _ _ h
    | parent =>
      cases v with
      | obj o => exact carries_evalFields fds _ _ h
      | _ => exact .fail
termination_by structural t => t
end

theorem carries_evalDoc (d : List Field) : Carries (evalDoc fs file stack load d) (evalDoc fs' file' stack' load' d) := by
  unfold evalDoc
  exact .bind (carries_evalFields hinc d [] none (Nat.le_refl _)) fun _ => .refl _

theorem carries_evalArrFile (es : List Expr) :
    Carries (evalArrFile fs file stack load es) (evalArrFile fs' file' stack' load' es) := by
  unfold evalArrFile
  exact .bind (carries_evalElems hinc es [] .any (Nat.le_refl _)) fun _ => .refl _

theorem carries_evalTupFile (es : List Expr) :
    Carries (evalTupFile fs file stack load es) (evalTupFile fs' file' stack' load' es) := by
  unfold evalTupFile
  exact .bind (carries_evalItems hinc es [] (Nat.le_refl _)) fun _ => .refl _

end

theorem Carries.own {m m' : EM Value} (h : Carries m m') : Carries (EM.ownGlobals m) (EM.ownGlobals m') := by
  intro st v st' hv
  unfold EM.ownGlobals at hv ⊢
  cases hm : m { st with globals := [] } with
  | error e => rw [hm] at hv; cases hv
  | ok x =>
    obtain ⟨a, st1⟩ := x
    rw [hm] at hv
    rw [h _ _ _ hm]
    exact hv

theorem FS.Sub.refl (fs : FS) : fs.Sub fs := ⟨fun _ _ h => h, fun _ _ _ => rfl⟩

theorem Leads.isFile {fs : FS} {path F : Str} (h : Leads fs path F) : fs.isFile path = true := by
  obtain ⟨h1, ⟨r, h2⟩, -⟩ := h
  simp [FS.isFile, h1, h2]

/-- Including a file that exists. -/
theorem evalInclude_leads {fs : FS} {file : Option Str} {stack : List Str} {load : Loader} {kind : IncKind} {p F : Str}
    (h : Leads fs (meantIn file p) F) : evalInclude fs file stack load kind p =
      if F ∈ stack then EM.fail file (.cyclicInclude p) else evalCached stack load kind (meantIn file p) F := by
  rw [evalInclude_def, h.1]
  have hc : ¬ (fs.isFile (meantIn file p) = false ∨ fs.utf8 F = false) := by simp [h.isFile, h.2.2]
  exact if_neg hc

/-- What a successful include says. -/
theorem evalInclude_ok {fs : FS} {file : Option Str} {stack : List Str} {load : Loader} {kind : IncKind} {p : Str}
    {st st' : ESt} {v : Value} (h : evalInclude fs file stack load kind p st = .ok (v, st')) :
    ∃ F, Leads fs (meantIn file p) F ∧ F ∉ stack ∧ evalCached stack load kind (meantIn file p) F st = .ok (v, st') := by
  rw [evalInclude_def] at h
  cases hfull : fs.resolve (meantIn file p) with
  | none => simp only [hfull] at h; cases h
  | some full =>
    simp only [hfull] at h
    by_cases hu : fs.isFile (meantIn file p) = false ∨ fs.utf8 full = false
    · rw [if_pos hu] at h; cases h
    rw [if_neg hu] at h
    by_cases hs : full ∈ stack
    · rw [if_pos hs] at h; cases h
    rw [if_neg hs] at h
    refine ⟨full, ⟨hfull, ?_, by simpa using (not_or.1 hu).2⟩, hs, h⟩
    have := (not_or.1 hu).1
    simp only [FS.isFile, hfull, Bool.not_eq_false] at this
    exact Option.isSome_iff_exists.1 this

theorem carries_include {fs fs' : FS} (hs : fs.Sub fs') {file : Option Str} {stack : List Str} {load load' : Loader}
    (hl : ∀ stack kind path F, Leads fs path F → Carries (load stack kind path) (load' stack kind path)) (kind : IncKind)
    (p : Str) : Carries (evalInclude fs file stack load kind p) (evalInclude fs' file stack load' kind p) := by
  intro st v st' h
  obtain ⟨F, h1, h2, h3⟩ := evalInclude_ok h
  have h1' := hs.leads _ _ h1
  rw [evalInclude_leads h1', if_neg h2]
  unfold evalCached at h3 ⊢
  cases hc : StrMap.get st.cache F with
  | some w => simp only [hc] at h3 ⊢; exact h3
  | none =>
    simp only [hc] at h3 ⊢
    cases hld : load (F :: stack) kind (meantIn file p) st with
    | error e => rw [hld] at h3; cases h3
    | ok x =>
      obtain ⟨w, st1⟩ := x
      rw [hld] at h3
      rw [hl _ _ _ _ h1 _ _ _ hld]
      exact h3

theorem carries_loadN [Unicode] {fs fs' : FS} (hs : fs.Sub fs') : ∀ {n m : Nat}, n ≤ m → ∀ stack kind path F,
    Leads fs path F → Carries (loadN fs n stack kind path) (loadN fs' m stack kind path)
  | 0, _, _, stack, kind, path, F, _ => by
    intro st v st' h
    simp only [loadN] at h
    cases h
  | n + 1, 0, hnm, _, _, _, _, _ => by omega
  | n + 1, m + 1, hnm, stack, kind, path, F, hF => by
    have ih := carries_loadN hs (n := n) (m := m) (by omega)
    have hinc : ∀ file stack kind p, Carries (evalInclude fs file stack (loadN fs n) kind p)
        (evalInclude fs' file stack (loadN fs' m) kind p) :=
      fun file stack kind p => carries_include hs (fun s k q G hG => ih s k q G hG) kind p
    cases htext : fs.read path with
    | error msg => rw [loadN_io htext]; exact .error
    | ok text =>
      have htext' : fs'.read path = .ok text := by rw [hs.read path F hF]; exact htext
      by_cases hx : FileText kind text
      swap
      · rw [loadN_malformed htext n stack hx]; exact .error
      cases kind with
      | str => rw [loadN_str htext, loadN_str htext']; exact .refl _
      | obj =>
        rw [loadN_obj htext n stack hx, loadN_obj htext' m stack hx]
        exact .own (.bind (carries_evalDoc (hinc _ _) _) fun _ => .refl _)
      | arr =>
        rw [loadN_arr htext n stack hx, loadN_arr htext' m stack hx]
        exact .own (carries_evalArrFile (hinc _ _) _)
      | tup =>
        rw [loadN_tup htext n stack hx, loadN_tup htext' m stack hx]
        exact .own (carries_evalTupFile (hinc _ _) _)

theorem resolve_without (fs : FS) (F path : Str) :
    (fs.without F).resolve path = if fs.resolve path = some F then none else fs.resolve path := by
  unfold FS.resolve FS.without
  cases pathParent path with
  | none => simp
  | some d => rfl

theorem leads_without {fs : FS} {F path G : Str} : Leads (fs.without F) path G ↔ Leads fs path G ∧ G ≠ F := by
  unfold Leads
  rw [resolve_without]
  by_cases h : fs.resolve path = some F
  · simp only [h, if_true]
    constructor
    · rintro ⟨h1, -⟩; cases h1
    · rintro ⟨⟨h1, -⟩, h2⟩; cases h1; exact absurd rfl h2
  · simp only [h, if_false]
    constructor
    · rintro ⟨h1, h2⟩
      refine ⟨⟨h1, h2⟩, ?_⟩
      rintro rfl
      exact h h1
    · rintro ⟨h1, -⟩; exact h1

theorem without_sub (fs : FS) (F : Str) : (fs.without F).Sub fs where
  leads path G h := (leads_without.1 h).1
  read path G h := by
    obtain ⟨h1, h2⟩ := leads_without.1 h
    have : fs.resolve path ≠ some F := by
      intro h3
      rw [h1.1] at h3
      cases h3
      exact h2 rfl
    simp only [FS.read, resolve_without, if_neg this]
    rfl

theorem resolve_only (fs : FS) (S : Str → Bool) (path : Str) :
    (fs.only S).resolve path = (fs.resolve path).filter S := by
  unfold FS.resolve FS.only
  cases pathParent path with
  | none => rfl
  | some d => rfl

theorem leads_only {fs : FS} {S : Str → Bool} {path G : Str} : Leads (fs.only S) path G ↔ Leads fs path G ∧ S G = true := by
  unfold Leads
  rw [resolve_only, Option.filter_eq_some_iff]
  constructor
  · rintro ⟨⟨h1, h2⟩, h3⟩
    exact ⟨⟨h1, h3⟩, h2⟩
  · rintro ⟨⟨h1, h3⟩, h2⟩
    exact ⟨⟨h1, h2⟩, h3⟩

theorem only_sub (fs : FS) (S : Str → Bool) : (fs.only S).Sub fs where
  leads path G h := (leads_only.1 h).1
  read path G h := by
    obtain ⟨h1, h2⟩ := leads_only.1 h
    simp only [FS.read, resolve_only, h1.1, Option.filter, h2, if_true]
    rfl

theorem noFiles_leads (path F : Str) : ¬ Leads noFiles path F := by rintro ⟨h, -⟩; cases canon_of_resolve h

theorem noFiles_sub (fs : FS) : noFiles.Sub fs where
  leads _ _ h := absurd h (noFiles_leads _ _)
  read _ _ h := absurd h (noFiles_leads _ _)

end Over
