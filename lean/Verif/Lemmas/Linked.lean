import Verif.Lemmas.Cache
import Verif.Lemmas.Shape
import Verif.Spec.Linked

/-! # One value per file -/

namespace Over

section
variable [Unicode] {fs : FS} {V : Str → Option Value}

/-- Values stay; and what is added is as `V` says, if `V` is to contain all of them. -/
structure NewOk (fs : FS) (V : Str → Option Value) (C C' : StrMap Value) : Prop where
  keep : ∀ k v, StrMap.get C k = some v → StrMap.get C' k = some v
  new : (∀ k v, StrMap.get C' k = some v → V k = some v) → ∀ k v, StrMap.get C' k = some v →
    StrMap.get C k = some v ∨ ∃ path, Leads fs path k ∧ FileIs fs V path v

theorem NewOk.refl (C : StrMap Value) : NewOk fs V C C := ⟨fun _ _ h => h, fun _ _ _ h => .inl h⟩

theorem NewOk.trans {A B C : StrMap Value} (h : NewOk fs V A B) (h' : NewOk fs V B C) : NewOk fs V A C where
  keep k v e := h'.1 k v (h.1 k v e)
  new hV k v e := (h'.2 hV k v e).elim (fun e' => h.2 (fun k v e => hV k v (h'.1 k v e)) k v e') .inr

/-- A successful evaluation keeps the values of files; and if `V` contains those it ends with, it gives a value with `Q`. -/
def vok (fs : FS) (V : Str → Option Value) {α : Type} (m : EM α) (Q : α → Prop) : Prop :=
  ∀ st a st', m st = .ok (a, st') → NewOk fs V st.cache st'.cache ∧
    ((∀ k v, StrMap.get st'.cache k = some v → V k = some v) → Q a)

section
variable {α β : Type}

theorem vok_bind {m : EM α} {f : α → EM β} {P : α → Prop} {Q : β → Prop} (hm : vok fs V m P)
    (hf : ∀ a, vok fs V (f a) (fun b => P a → Q b)) : vok fs V (m >>= f) Q := by
  intro st b st' h
  change EM.bind m f st = _ at h
  unfold EM.bind at h
  cases hms : m st with
  | error e => rw [hms] at h; cases h
  | ok x =>
    obtain ⟨a, st1⟩ := x
    rw [hms] at h
    obtain ⟨h1, h2⟩ := hm st a st1 hms
    obtain ⟨h3, h4⟩ := hf a st1 b st' h
    exact ⟨h1.trans h3, fun hV => h4 hV (h2 (fun k v e => hV k v (h3.keep k v e)))⟩

theorem vok_pure {a : α} {Q : α → Prop} (h : Q a) : vok fs V (pure a) Q := by
  intro st b st' hb
  cases hb
  exact ⟨.refl _, fun _ => h⟩

theorem vok_fail {file : Option Str} {k : SemKind} {Q : α → Prop} : vok fs V (EM.fail file k : EM α) Q := by
  intro st b st' hb
  cases hb

theorem vok_mono {m : EM α} {P Q : α → Prop} (h : vok fs V m P) (h' : ∀ a, P a → Q a) : vok fs V m Q :=
  fun st a st' e => ⟨(h st a st' e).1, fun hV => h' a ((h st a st' e).2 hV)⟩

theorem vok_same {m : EM α} (h : ∀ st a st', m st = .ok (a, st') → st'.cache = st.cache) {Q : α → Prop} (hq : eok m Q) :
    vok fs V m Q :=
  fun st a st' e => ⟨by rw [h st a st' e]; exact .refl _, fun _ => hq st a st' e⟩

theorem vok_fresh : vok fs V EM.fresh (fun _ => True) :=
  vok_same (by intro st a st' h; cases h; rfl) eok_true

theorem vok_depth {file : Option Str} {d : Nat} : vok fs V (depthCheck file d) (fun _ => True) := by
  unfold depthCheck
  split
  · exact vok_fail
  · exact vok_pure trivial

end

/-- The invariant for the evaluator. -/
def linkInv (fs : FS) (V : Str → Option Value) : EvalInv Unit (fun _ => True) :=
  cacheInv (NewOk fs V) NewOk.refl (fun h h' => h.trans h')

/-- Files are read as `V` says. -/
def LoadOk (fs : FS) (V : Str → Option Value) (load : Loader) : Prop :=
  ∀ stack kind path, vok fs V (load stack kind path) (FileIs fs V path)

theorem evalInclude_vok {load : Loader} (hc : LoaderCache fs load) (hl : LoadOk fs V load) (file : Option Str)
    (stack : List Str) (kind : IncKind) (p : Str) :
    vok fs V (evalInclude fs file stack load kind p) (IncludeIs fs file V p) := by
  intro st v st' h
  obtain ⟨hr, F, hF, -, hg⟩ := evalInclude_cache hc h
  refine ⟨⟨hr.keep, ?_⟩, fun hV => ⟨F, hF, hV F v hg⟩⟩
  rw [evalInclude_def] at h
  generalize meantIn file p = path at h
  split at h
  · cases h
  rename_i full hfull
  by_cases hu : fs.isFile path = false ∨ fs.utf8 full = false
  · rw [if_pos hu] at h; cases h
  rw [if_neg hu] at h
  by_cases hs : full ∈ stack
  · rw [if_pos hs] at h; cases h
  rw [if_neg hs] at h
  have hleads : Leads fs path full := by
    simp only [not_or, Bool.not_eq_false] at hu
    refine ⟨hfull, ?_, hu.2⟩
    have := hu.1
    simp only [FS.isFile, hfull] at this
    exact Option.isSome_iff_exists.1 this
  intro hV k w hk
  cases hcc : StrMap.get st.cache full with
  | some w =>
    simp only [evalCached, hcc] at h
    cases h
    exact .inl hk
  | none =>
    simp only [evalCached, hcc] at h
    cases hld : load (full :: stack) kind path st with
    | error e => rw [hld] at h; cases h
    | ok x =>
      obtain ⟨u, st1⟩ := x
      rw [hld] at h
      cases h
      have hro := hc _ _ _ _ _ _ hld
      obtain ⟨h1, h2⟩ := hl _ _ _ _ _ _ hld
      have hV1 : ∀ k v, StrMap.get st1.cache k = some v → V k = some v := by
        intro k x hx
        refine hV k x ?_
        have : k ≠ full := by
          rintro rfl
          rw [hro.open_ _ (by simp), hcc] at hx
          cases hx
        show StrMap.get (StrMap.insert _ _ _) k = _
        rw [StrMap.get_insert_ne _ _ this]
        exact hx
      change StrMap.get (StrMap.insert _ _ _) k = _ at hk
      by_cases hkf : k = full
      · subst hkf
        rw [StrMap.get_insert_self] at hk
        cases hk
        exact .inr ⟨path, hleads, h2 hV1⟩
      · rw [StrMap.get_insert_ne _ _ hkf] at hk
        exact h1.new hV1 k w hk

section
variable {file : Option Str} {stack : List Str} {load : Loader}

theorem linkInv_includes (hc : LoaderCache fs load) (hl : LoadOk fs V load) :
    (linkInv fs V).Includes fs file stack load := by
  intro kind p σ _ v st' h
  exact ⟨(), trivial, (evalInclude_vok hc hl file stack kind p σ.1 v st' h).1, trivial⟩

theorem vok_term (hc : LoaderCache fs load) (hl : LoadOk fs V load) (t : Term) (ps : List Pair) (d : Nat) :
    vok fs V (evalTerm fs file stack load t ps d) (fun _ => True) := by
  intro st v st' h
  obtain ⟨_, -, h2, -⟩ := (linkInv fs V).evalTerm_good (linkInv_includes hc hl) t ps d (st, ()) trivial
    (fun _ _ => trivial) (fun _ _ => trivial) _ _ h
  exact ⟨h2, fun _ => trivial⟩

theorem vok_expr (hc : LoaderCache fs load) (hl : LoadOk fs V load) (e : Expr) (ps : List Pair) (d : Nat) :
    vok fs V (evalExpr fs file stack load e ps d) (fun _ => True) := by
  intro st v st' h
  obtain ⟨_, -, h2, -⟩ := (linkInv fs V).evalExpr_good (linkInv_includes hc hl) e ps d (st, ()) trivial
    (fun _ _ => trivial) (fun _ _ => trivial) _ _ h
  exact ⟨h2, fun _ => trivial⟩

theorem vok_keyword (v : Value) : vok fs V (evalKeyword file v) (fun _ => True) := by
  intro st k st' h
  obtain ⟨_, -, h2⟩ := (linkInv fs V).evalKeyword_good (file := file) (σ := (st, ())) trivial v _ _ h
  exact ⟨h2, fun _ => trivial⟩

theorem vok_check {ps : List Pair} {par : Option Obj} {tg : Target} :
    vok fs V (checkNew file ps par tg) (fun _ => tg = .parent → par.isSome = false) := by
  refine vok_same ?_ ?_
  · intro st a st' h
    cases tg with
    | field f => simp only [checkNew] at h; split at h <;> cases h; rfl
    | parent => simp only [checkNew] at h; split at h <;> cases h; rfl
    | global g => simp only [checkNew] at h; split at h <;> cases h; rfl
  · cases tg with
    | parent =>
      simp only [checkNew]
      by_cases h : par.isSome = true
      · rw [if_pos h]; exact eok_fail
      · rw [if_neg h]; exact eok_pure (fun _ => by simpa using h)
    | _ => exact fun _ _ _ _ h => by cases h

/-- The path of an include. -/
theorem vok_path (hc : LoaderCache fs load) (hl : LoadOk fs V load) (e : Expr) (ps : List Pair) (d : Nat) :
    vok fs V (evalExpr fs file stack load e ps d) (fun v => ∀ p, e.literalPath = some p → v = .str p) := by
  intro st v st' h
  refine ⟨(vok_expr hc hl e ps d st v st' h).1, ?_⟩
  intro _ p hp
  unfold Expr.literalPath at hp
  split at hp
  · cases hp
    rw [evalExpr_term] at h
    simp only [evalTerm] at h
    cases h
    rfl
  · cases hp

mutual
theorem evalTerm_linked (hc : LoaderCache fs load) (hl : LoadOk fs V load) : ∀ (t : Term) (ps : List Pair) (d : Nat),
    vok fs V (evalTerm fs file stack load t ps d) (t.linked (IncludeIs fs file V))
  | .str s, ps, d => by simp only [evalTerm, Term.linked]; exact vok_pure rfl
  | .int s, ps, d => by simp only [evalTerm, Term.linked]; exact vok_pure rfl
  | .frac s, ps, d => by simp only [evalTerm, Term.linked]; exact vok_pure rfl
  | .name x, ps, d => vok_mono (vok_term hc hl _ _ _) fun _ _ => by simp only [Term.linked]
  | .dot x t, ps, d => vok_mono (vok_term hc hl _ _ _) fun _ _ => by simp only [Term.linked]
  | .neg t, ps, d => vok_mono (vok_term hc hl _ _ _) fun _ _ => by simp only [Term.linked]
  | .pos t, ps, d => vok_mono (vok_term hc hl _ _ _) fun _ _ => by simp only [Term.linked]
  | .incl e, ps, d => by
    simp only [evalTerm, Term.linked]
    refine vok_bind vok_depth fun _ => vok_mono ?_ (fun _ h _ => h)
    refine vok_bind (vok_path hc hl e ps (d + 1)) fun v => ?_
    refine vok_bind (vok_keyword v) fun k => ?_
    split
    · refine vok_mono (evalInclude_vok hc hl file stack _ _) ?_
      rintro w hw - hp q hq
      cases hp q hq
      exact hw
    · exact vok_fail
  | .inclAs k e, ps, d => by
    simp only [evalTerm, Term.linked]
    refine vok_bind vok_depth fun _ => vok_mono ?_ (fun _ h _ => h)
    refine vok_bind (vok_expr hc hl k ps (d + 1)) fun v => vok_mono ?_ (fun _ h _ => h)
    refine vok_bind (vok_keyword v) fun k => vok_mono ?_ (fun _ h _ => h)
    cases k with
    | none => exact vok_fail
    | some kind =>
      refine vok_bind (vok_path hc hl e ps (d + 1)) fun v => ?_
      cases v with
      | str p =>
        refine vok_mono (evalInclude_vok hc hl file stack _ _) ?_
        rintro w hw hp q hq
        cases hp q hq
        exact hw
      | _ => exact vok_fail
  | .arr es, ps, d => by
    simp only [evalTerm]
    refine vok_bind vok_depth fun _ => vok_mono ?_ (fun _ h _ => h)
    refine vok_bind (evalElems_linked hc hl es ps (d + 1) .any) ?_
    rintro ⟨vs, t⟩
    refine vok_bind vok_fresh fun id => vok_pure ?_
    rintro - h
    simp only [Term.linked]
    exact ⟨id, t, vs, rfl, h⟩
  | .tup es, ps, d => by
    simp only [evalTerm]
    refine vok_bind vok_depth fun _ => vok_mono ?_ (fun _ h _ => h)
    refine vok_bind (evalItems_linked hc hl es ps (d + 1)) ?_
    intro vs
    refine vok_bind vok_fresh fun id => vok_pure ?_
    rintro - h
    simp only [Term.linked]
    exact ⟨id, _, vs, rfl, h⟩
  | .obj fds, ps, d => by
    simp only [evalTerm]
    refine vok_bind vok_depth fun _ => vok_mono ?_ (fun _ h _ => h)
    refine vok_bind (evalFields_linked hc hl fds (d + 1) [] none) ?_
    rintro ⟨qs, par⟩
    refine vok_bind vok_fresh fun id => vok_pure ?_
    rintro - ⟨new, h1, h2, -⟩
    simp only [Term.linked]
    simp only [List.nil_append] at h1
    subst h1
    exact ⟨id, _, par, rfl, h2⟩
termination_by structural t => t
theorem evalExpr_linked (hc : LoaderCache fs load) (hl : LoadOk fs V load) : ∀ (e : Expr) (ps : List Pair) (d : Nat),
    vok fs V (evalExpr fs file stack load e ps d) (e.linked (IncludeIs fs file V))
  | .mk t r, ps, d => by
    cases r with
    | cons o r => exact vok_mono (vok_expr hc hl _ _ _) fun _ _ => by simp only [Expr.linked]
    | nil =>
      simp only [evalExpr, evalChain]
      refine vok_bind (evalTerm_linked hc hl t ps d) ?_
      intro v
      refine vok_bind (P := fun x => x = (v, [])) (vok_pure rfl) ?_
      rintro ⟨p, sums⟩
      intro st a st' h
      by_cases he : (p, sums) = (v, [])
      · cases he
        simp only [sumLeft] at h
        cases h
        refine ⟨.refl _, fun _ _ hv => ?_⟩
        simp only [Expr.linked]
        exact hv
      · obtain ⟨_, -, h2, -⟩ := (linkInv fs V).sumLeft_good (file := file) sums p (st, ()) trivial trivial
          (fun _ _ => trivial) _ _ h
        exact ⟨h2, fun _ h3 => absurd h3 he⟩
termination_by structural t => t
theorem evalElems_linked (hc : LoaderCache fs load) (hl : LoadOk fs V load) : ∀ (es : List Expr) (ps : List Pair) (d : Nat)
    (t : Ty), vok fs V (evalElems fs file stack load es ps d t) (fun x => Expr.linkedL (IncludeIs fs file V) es x.1)
  | [], ps, d, t => by simp only [evalElems, Expr.linkedL]; exact vok_pure rfl
  | e :: es, ps, d, t => by
    simp only [evalElems]
    refine vok_bind (evalExpr_linked hc hl e ps d) ?_
    intro v
    cases Ty.mostSpecific t v.getType with
    | none => exact vok_fail
    | some x =>
      obtain ⟨u, b⟩ := x
      refine vok_bind (evalElems_linked hc hl es ps d u) ?_
      rintro ⟨vs, u'⟩
      refine vok_pure ?_
      rintro h hv
      simp only [Expr.linkedL]
      exact ⟨v, vs, rfl, hv, h⟩
termination_by structural t => t
theorem evalItems_linked (hc : LoaderCache fs load) (hl : LoadOk fs V load) : ∀ (es : List Expr) (ps : List Pair) (d : Nat),
    vok fs V (evalItems fs file stack load es ps d) (fun x => Expr.linkedL (IncludeIs fs file V) es x)
  | [], ps, d => by simp only [evalItems, Expr.linkedL]; exact vok_pure rfl
  | e :: es, ps, d => by
    simp only [evalItems]
    refine vok_bind (evalExpr_linked hc hl e ps d) ?_
    intro v
    refine vok_bind (evalItems_linked hc hl es ps d) ?_
    intro vs
    refine vok_pure ?_
    rintro h hv
    simp only [Expr.linkedL]
    exact ⟨v, vs, rfl, hv, h⟩
termination_by structural t => t
theorem evalFields_linked (hc : LoaderCache fs load) (hl : LoadOk fs V load) : ∀ (fds : List Field) (d : Nat)
    (ps : List Pair) (par : Option Obj), vok fs V (evalFields fs file stack load fds d ps par) (fun x => ∃ new,
      x.1 = ps ++ new ∧ Field.linked (IncludeIs fs file V) fds new x.2 ∧ (par.isSome = true → x.2 = par))
  | [], d, ps, par => by
    simp only [evalFields, Field.linked]
    exact vok_pure ⟨[], by simp, rfl, fun _ => rfl⟩
  | .mk tg e :: fds, d, ps, par => by
    simp only [evalFields]
    refine vok_bind (vok_check (tg := tg)) fun _ => ?_
    refine vok_bind (evalExpr_linked hc hl e ps d) ?_
    intro v
    cases tg with
    | field f =>
      refine vok_mono (evalFields_linked hc hl fds d (ps ++ [.mk f v]) par) ?_
      rintro ⟨qs, par'⟩ ⟨new, h1, h2, h4⟩ hv -
      refine ⟨.mk f v :: new, by simpa using h1, ?_, h4⟩
      simp only [Field.linked]
      exact ⟨v, new, rfl, hv, h2⟩
    | global g =>
      refine vok_bind (P := fun _ => True) ?_ fun _ => vok_mono (evalFields_linked hc hl fds d ps par) ?_
      · exact vok_same (by intro st a st' h; cases h; rfl) eok_true
      rintro ⟨qs, par'⟩ ⟨new, h1, h2, h4⟩ - - -
      refine ⟨new, h1, ?_, h4⟩
      simp only [Field.linked]
      exact h2
    | parent =>
      cases v with
      | obj o =>
        refine vok_mono (evalFields_linked hc hl fds d ps (some o)) ?_
        rintro ⟨qs, par'⟩ ⟨new, h1, h2, h4⟩ hv hch
        refine ⟨new, h1, ?_, ?_⟩
        · simp only [Field.linked]
          exact ⟨⟨o, h4 rfl, hv⟩, h2⟩
        · intro h
          rw [hch rfl] at h
          cases h
      | _ => exact vok_fail
termination_by structural t => t
end

theorem evalDoc_linked (hc : LoaderCache fs load) (hl : LoadOk fs V load) (d : List Field) :
    vok fs V (evalDoc fs file stack load d) (fun o => Field.linked (IncludeIs fs file V) d o.pairs o.parent) := by
  unfold evalDoc
  refine vok_bind (evalFields_linked hc hl d 1 [] none) ?_
  rintro ⟨ps, par⟩
  refine vok_bind vok_fresh fun id => vok_pure ?_
  rintro - ⟨new, h1, h2, -⟩
  simp only [List.nil_append] at h1
  subst h1
  exact h2

end

theorem own_vok {α : Type} {m : EM α} {Q : α → Prop} (h : vok fs V m Q) : vok fs V (EM.ownGlobals m) Q := by
  intro st v st' hv
  unfold EM.ownGlobals at hv
  cases hm : m { st with globals := [] } with
  | error e => rw [hm] at hv; cases hv
  | ok x =>
    obtain ⟨a, st1⟩ := x
    rw [hm] at hv
    cases hv
    exact h { st with globals := [] } _ st1 hm

theorem loadN_ok : ∀ n, LoadOk fs V (loadN fs n)
  | 0 => by
    intro stack kind path st v st' h
    simp only [loadN] at h
    cases h
  | n + 1 => by
    have ih := loadN_ok n
    have hc := loadN_cache fs n
    intro stack kind path
    cases htext : fs.read path with
    | error msg => rw [loadN_io htext]; intro st v st' h; cases h
    | ok text =>
      by_cases hx : FileText kind text
      swap
      · rw [loadN_malformed htext n stack hx]; intro st v st' h; cases h
      cases kind with
      | str => rw [loadN_str htext]; exact vok_pure (.str htext)
      | obj =>
        rw [loadN_obj htext n stack hx]
        refine own_vok (vok_bind (evalDoc_linked hc ih _) fun o => vok_pure fun h => ?_)
        exact .obj htext (Exists.choose_spec hx) h
      | arr =>
        rw [loadN_arr htext n stack hx]
        refine own_vok ?_
        unfold evalArrFile
        refine vok_bind (evalElems_linked hc ih _ _ _ _) ?_
        rintro ⟨vs, t⟩
        exact vok_bind vok_fresh fun id => vok_pure fun _ h => .arr htext (Exists.choose_spec hx) h
      | tup =>
        rw [loadN_tup htext n stack hx]
        refine own_vok ?_
        unfold evalTupFile
        refine vok_bind (evalItems_linked hc ih _ _ _) ?_
        intro vs
        exact vok_bind vok_fresh fun id => vok_pure fun _ h => .tup htext (Exists.choose_spec hx) h

/-- The meaning of a document. -/
theorem meaning_linked {file : Option Str} {stack : List Str} {d : List Field} {rt : Rt} {o : Obj} {st : ESt}
    (h : meaning fs file stack d rt = .ok (o, st)) :
    ∃ V, OneValuePerFile fs V ∧ Field.linked (IncludeIs fs file V) d o.pairs o.parent := by
  refine ⟨StrMap.get st.cache, ?_⟩
  obtain ⟨h1, h2⟩ := evalDoc_linked (V := StrMap.get st.cache) (loadN_cache fs _) (loadN_ok _) d _ _ _ h
  refine ⟨?_, h2 (fun _ _ h => h)⟩
  intro F v hF
  rcases h1.new (fun _ _ h => h) F v hF with h | h
  · cases h
  · exact h

end

end Over
