import Verif.Lemmas.Place
import Verif.Spec.Include

/-! # What evaluation does to the values of included files, and to the keyword objects -/

namespace Over

/-! ## The values of included files -/

/-- Values stay, nothing is added for the files being read, and everything added belongs to an existing file. -/
structure CacheRel (fs : FS) (stack : List Str) (C C' : StrMap Value) : Prop where
  keep : ∀ k v, StrMap.get C k = some v → StrMap.get C' k = some v
  open_ : ∀ k ∈ stack, StrMap.get C' k = StrMap.get C k
  leads : ∀ k v, StrMap.get C' k = some v → StrMap.get C k = some v ∨ ∃ path, Leads fs path k

theorem CacheRel.refl (fs : FS) (stack : List Str) (C : StrMap Value) : CacheRel fs stack C C :=
  ⟨fun _ _ h => h, fun _ _ => rfl, fun _ _ h => .inl h⟩

theorem CacheRel.trans {fs : FS} {stack : List Str} {A B C : StrMap Value} (h : CacheRel fs stack A B)
    (h' : CacheRel fs stack B C) : CacheRel fs stack A C where
  keep k v e := h'.1 k v (h.1 k v e)
  open_ k hk := (h'.2 k hk).trans (h.2 k hk)
  leads k v e := (h'.3 k v e).elim (fun e' => h.3 k v e') .inr

theorem keywordId_cache (k : IncKind) (st st' : ESt) (i : Nat) (h : EM.keywordId k st = .ok (i, st')) :
    st'.cache = st.cache := by
  unfold EM.keywordId at h
  simp only [] at h
  split at h
  · cases h; rfl
  · cases h; rfl

def cacheInv (R : StrMap Value → StrMap Value → Prop) (refl : ∀ m, R m m) (trans : ∀ {a b c}, R a b → R b c → R a c) :
    EvalInv Unit (fun _ => True) where
  I _ := True
  R σ τ := R σ.1.cache τ.1.cache
  V _ _ := True
  refl σ := refl _
  trans h1 h2 := trans h1 h2
  mono _ _ _ _ := trivial
  null _ := trivial
  bool _ _ := trivial
  int _ _ := trivial
  frac _ _ := trivial
  str _ _ := trivial
  ofArr _ _ _ _ := trivial
  ofTup _ _ _ _ := trivial
  ofObj _ _ _ _ := trivial
  newArr _ _ _ _ := ⟨(), trivial, refl _, trivial⟩
  newTup _ _ _ _ := ⟨(), trivial, refl _, trivial⟩
  newObj _ _ _ _ _ := ⟨(), trivial, refl _, trivial⟩
  keyword {σ} k _ := by
    intro i st' h
    refine ⟨(), trivial, ?_, trivial⟩
    show R σ.1.cache st'.cache
    rw [keywordId_cache k _ _ _ h]
    exact refl _
  global _ _ := trivial
  setGlobal _ _ _ _ hr _ := ⟨trivial, hr, fun _ _ => trivial⟩

/-- What a loader does to the values of included files. -/
def LoaderCache (fs : FS) (load : Loader) : Prop :=
  ∀ stack kind path st v st', load stack kind path st = .ok (v, st') → CacheRel fs stack st.cache st'.cache

theorem evalInclude_def (fs : FS) (file : Option Str) (stack : List Str) (load : Loader) (kind : IncKind)
    (p : Str) : evalInclude fs file stack load kind p =
      match fs.resolve (meantIn file p) with
      | none => EM.fail file (.includePath p)
      | some full =>
        if fs.isFile (meantIn file p) = false ∨ fs.utf8 full = false then EM.fail file (.includePath p)
        else if full ∈ stack then EM.fail file (.cyclicInclude p)
        else evalCached stack load kind (meantIn file p) full := rfl

theorem evalInclude_cache {fs : FS} {load : Loader} (hl : LoaderCache fs load) {file : Option Str} {stack : List Str}
    {kind : IncKind} {p : Str} {st st' : ESt} {v : Value}
    (h : evalInclude fs file stack load kind p st = .ok (v, st')) :
    CacheRel fs stack st.cache st'.cache ∧ ∃ F, Leads fs (meantIn file p) F ∧ F ∉ stack ∧
      StrMap.get st'.cache F = some v := by
  rw [evalInclude_def] at h
  generalize meantIn file p = path at h ⊢
  split at h
  · cases h
  rename_i full hfull
  by_cases hu : fs.isFile path = false ∨ fs.utf8 full = false
  · rw [if_pos hu] at h; cases h
  rw [if_neg hu] at h
  by_cases hs : full ∈ stack
  · rw [if_pos hs] at h; cases h
  rw [if_neg hs] at h
  have hleads : Leads fs path full := by
    simp only [not_or, Bool.not_eq_false] at hu
    refine ⟨hfull, ?_, hu.2⟩
    have := hu.1
    simp only [FS.isFile, hfull] at this
    exact Option.isSome_iff_exists.1 this
  cases hc : StrMap.get st.cache full with
  | some w =>
    simp only [evalCached, hc] at h
    cases h
    exact ⟨.refl _ _ _, full, hleads, hs, hc⟩
  | none =>
    simp only [evalCached, hc] at h
    cases hld : load (full :: stack) kind path st with
    | error e => rw [hld] at h; cases h
    | ok x =>
      obtain ⟨w, st1⟩ := x
      rw [hld] at h
      cases h
      have hr := hl _ _ _ _ _ _ hld
      refine ⟨⟨?_, ?_, ?_⟩, full, hleads, hs, StrMap.get_insert_self _ _ _⟩
      · intro k x hx
        have : k ≠ full := by rintro rfl; rw [hc] at hx; cases hx
        show StrMap.get (StrMap.insert _ _ _) k = _
        rw [StrMap.get_insert_ne _ _ this]
        exact hr.1 k x hx
      · intro k hk
        have : k ≠ full := by rintro rfl; exact hs hk
        show StrMap.get (StrMap.insert _ _ _) k = _
        rw [StrMap.get_insert_ne _ _ this]
        exact hr.2 k (List.mem_cons_of_mem _ hk)
      · intro k x hx
        by_cases hk : k = full
        · exact .inr ⟨_, hk ▸ hleads⟩
        · change StrMap.get (StrMap.insert _ _ _) k = _ at hx
          rw [StrMap.get_insert_ne _ _ hk] at hx
          exact hr.3 k x hx

/-- The invariant of the values of included files, for a file that is read with this stack. -/
def stackInv (fs : FS) (stack : List Str) : EvalInv Unit (fun _ => True) :=
  cacheInv (CacheRel fs stack) (CacheRel.refl fs stack) (CacheRel.trans)

theorem stackInv_includes {fs : FS} {load : Loader} (hl : LoaderCache fs load) (file : Option Str) (stack : List Str) :
    (stackInv fs stack).Includes fs file stack load := by
  intro kind p σ _ v st' h
  exact ⟨(), trivial, (evalInclude_cache hl h).1, trivial⟩

theorem own_cache {fs : FS} {m : EM Value} {stack : List Str}
    (h : ∀ st v st', m st = .ok (v, st') → CacheRel fs stack st.cache st'.cache) :
    ∀ st v st', EM.ownGlobals m st = .ok (v, st') → CacheRel fs stack st.cache st'.cache := by
  intro st v st' hv
  unfold EM.ownGlobals at hv
  cases hm : m { st with globals := [] } with
  | error e => rw [hm] at hv; cases hv
  | ok x =>
    obtain ⟨a, st1⟩ := x
    rw [hm] at hv
    cases hv
    exact h { st with globals := [] } _ st1 hm

theorem bind_pure_ok {α β : Type} {m : EM α} {f : α → β} {st st' : ESt} {b : β}
    (h : (m >>= fun a => pure (f a)) st = .ok (b, st')) : ∃ a, m st = .ok (a, st') ∧ b = f a := by
  cases hm : m st with
  | error e => rw [EM.bind_err hm] at h; cases h
  | ok x =>
    obtain ⟨a, st1⟩ := x
    rw [EM.bind_ok hm] at h
    cases h
    exact ⟨a, rfl, rfl⟩

theorem loadN_cache [Unicode] (fs : FS) : ∀ n, LoaderCache fs (loadN fs n)
  | 0 => by
    intro stack kind path st v st' h
    simp only [loadN] at h
    cases h
  | n + 1 => by
    have ih := loadN_cache fs n
    intro stack kind path st v st' h
    cases htext : fs.read path with
    | error msg => rw [loadN_io htext] at h; cases h
    | ok text =>
      by_cases hx : FileText kind text
      swap
      · rw [loadN_malformed htext n stack hx] at h; cases h
      cases kind with
      | str => rw [loadN_str htext] at h; cases h; exact .refl _ _ _
      | obj =>
        rw [loadN_obj htext n stack hx] at h
        refine own_cache ?_ _ _ _ h
        intro st v st' h
        obtain ⟨o, h1, -⟩ := bind_pure_ok h
        obtain ⟨_, -, h2, -⟩ := (stackInv fs stack).evalDoc_good (stackInv_includes ih (some path) stack) _ (st, ())
          trivial (fun _ _ => trivial) _ _ h1
        exact h2
      | arr =>
        rw [loadN_arr htext n stack hx] at h
        refine own_cache ?_ _ _ _ h
        intro st v st' h
        obtain ⟨_, -, h2, -⟩ := (stackInv fs stack).evalArrFile_good (stackInv_includes ih (some path) stack) _ (st, ())
          trivial (fun _ _ => trivial) _ _ h
        exact h2
      | tup =>
        rw [loadN_tup htext n stack hx] at h
        refine own_cache ?_ _ _ _ h
        intro st v st' h
        obtain ⟨_, -, h2, -⟩ := (stackInv fs stack).evalTupFile_good (stackInv_includes ih (some path) stack) _ (st, ())
          trivial (fun _ _ => trivial) _ _ h
        exact h2

theorem evalFields_cache [Unicode] {fs : FS} {n : Nat} {file : Option Str} {stack : List Str} {fds : List Field} {d : Nat}
    {ps : List Pair} {par : Option Obj} {st st' : ESt} {b : List Pair × Option Obj}
    (h : evalFields fs file stack (loadN fs n) fds d ps par st = .ok (b, st')) : CacheRel fs stack st.cache st'.cache := by
  obtain ⟨_, -, h2, -⟩ := (stackInv fs stack).evalFields_good (stackInv_includes (loadN_cache fs n) file stack) fds d ps par
    (st, ()) trivial (fun _ _ => trivial) (fun _ _ => trivial) (fun _ _ => trivial) _ _ h
  exact h2

theorem evalExpr_cache [Unicode] {fs : FS} {n : Nat} {file : Option Str} {stack : List Str} {e : Expr} {d : Nat}
    {ps : List Pair} {st st' : ESt} {v : Value}
    (h : evalExpr fs file stack (loadN fs n) e ps d st = .ok (v, st')) : CacheRel fs stack st.cache st'.cache := by
  obtain ⟨_, -, h2, -⟩ := (stackInv fs stack).evalExpr_good (stackInv_includes (loadN_cache fs n) file stack) e ps d
    (st, ()) trivial (fun _ _ => trivial) (fun _ _ => trivial) _ _ h
  exact h2

end Over
