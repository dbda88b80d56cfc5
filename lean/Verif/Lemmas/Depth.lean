import Verif.Lemmas.Acyclic
import Verif.Spec.Depth

/-! # The depth limit, by induction over the evaluator -/

set_option linter.unusedSectionVars false

namespace Over

/-- `L` levels of brackets fit at depth `d`. -/
def Fits (d L : Nat) : Prop := L = 0 ∨ d + L ≤ 64

theorem fits_zero (d : Nat) : Fits d 0 := .inl rfl

theorem fits_max {d a b : Nat} : Fits d (max a b) ↔ Fits d a ∧ Fits d b := by
  unfold Fits; omega

theorem fits_bracket {d L : Nat} : Fits d (1 + L) ↔ d + 1 ≤ 64 ∧ Fits (d + 1) L := by
  unfold Fits; omega

theorem fits_sign {d L : Nat} : Fits d (signLevels L) ↔ Fits (d + 1) L := by
  unfold Fits signLevels
  split <;> omega

section
variable [Unicode]

/-- The run succeeds only if `F` holds, and fails with a watched error only if `F` does not hold (and exceeding the
depth in this file is watched at all). -/
def Depths (T : SemErr → Prop) (file : Option Str) {α : Type} (m : EM α) (F : Prop) : Prop :=
  ∀ st, match m st with
    | .ok _ => F
    | .error e => T e → ¬ F ∧ T (.sem file .maxDepth)

/-- Watched errors are errors of exceeded depth. -/
def Watch (T : SemErr → Prop) (file : Option Str) : Prop := ∀ k, T (.sem file k) → k = .maxDepth

section
variable {T : SemErr → Prop} {file : Option Str} {α β : Type}

theorem Depths.bind {m : EM α} {f : α → EM β} {F G : Prop} (h : Depths T file m F) (hf : ∀ a, Depths T file (f a) G) :
    Depths T file (m >>= f) (F ∧ G) := by
  intro st
  have h0 := h st
  cases hm : m st with
  | error e =>
    rw [EM.bind_err hm]
    rw [hm] at h0
    intro ht
    exact ⟨fun hfg => (h0 ht).1 hfg.1, (h0 ht).2⟩
  | ok x =>
    obtain ⟨a, st1⟩ := x
    rw [EM.bind_ok hm]
    rw [hm] at h0
    have h1 := hf a st1
    cases hb : f a st1 with
    | ok y => rw [hb] at h1; exact ⟨h0, h1⟩
    | error e => rw [hb] at h1; exact fun ht => ⟨fun hfg => (h1 ht).1 hfg.2, (h1 ht).2⟩

theorem Depths.iff {m : EM α} {F G : Prop} (h : Depths T file m F) (hi : F ↔ G) : Depths T file m G := by
  rwa [← propext hi]

theorem Depths.seq {m : EM α} {f : α → EM β} {G : Prop} (h : Depths T file m True) (hf : ∀ a, Depths T file (f a) G) :
    Depths T file (m >>= f) G := (h.bind hf).iff (by simp)

theorem Depths.then {m : EM α} {f : α → EM β} {F : Prop} (h : Depths T file m F) (hf : ∀ a, Depths T file (f a) True) :
    Depths T file (m >>= f) F := (h.bind hf).iff (by simp)

theorem Depths.fail {k : SemKind} (hw : Watch T file) (hk : k ≠ .maxDepth) {F : Prop} :
    Depths T file (EM.fail file k : EM α) F := fun _ ht => absurd (hw k ht) hk

theorem Depths.ok {m : EM α} (h : ∀ st, ∃ x, m st = .ok x) : Depths T file m True := by
  intro st
  obtain ⟨x, hx⟩ := h st
  rw [hx]
  trivial

theorem Depths.pure (a : α) : Depths T file (Pure.pure a : EM α) True := fun _ => trivial
theorem Depths.fresh : Depths T file EM.fresh True := fun _ => trivial

theorem Depths.keyword (k : IncKind) : Depths T file (EM.keywordId k) True := by
  refine .ok fun st => ?_
  unfold EM.keywordId
  cases k <;> dsimp only <;> split <;> exact ⟨_, rfl⟩

theorem Depths.ite {c : Prop} [Decidable c] {a b : EM α} {F : Prop} (h1 : Depths T file a F) (h2 : Depths T file b F) :
    Depths T file (if c then a else b) F := by
  by_cases h : c
  · rw [if_pos h]; exact h1
  · rw [if_neg h]; exact h2

theorem Depths.cond {c : Prop} [Decidable c] {a b : EM α} {F : Prop} (h1 : c → Depths T file a F) (h2 : ¬ c → Depths T file b F) :
    Depths T file (if c then a else b) F := by
  by_cases h : c
  · rw [if_pos h]; exact h1 h
  · rw [if_neg h]; exact h2 h

end

section
variable {T : SemErr → Prop} {file : Option Str} (hw : Watch T file)
include hw

theorem depths_applyBin (op : BinOp) (a b : Value) : Depths T file (applyBin file op a b) True := by
  unfold applyBin
  cases binSem op a b with
  | val v => exact .pure _
  | newArr t vs => exact .seq .fresh fun _ => .pure _
  | bad t1 t2 => exact .fail hw (by simp)
  | divisionByZero => exact .fail hw (by simp)

theorem depths_applyUn (op : UnOp) (a : Value) : Depths T file (applyUn file op a) True := by
  cases op <;> cases a <;> first | exact .pure _ | exact .fail hw (by simp)

theorem depths_sumLeft : ∀ (l : List (BinOp × Value)) (v : Value), Depths T file (sumLeft file v l) True
  | [], v => .pure _
  | (op, w) :: r, v => by
    simp only [sumLeft]
    exact .seq (depths_applyBin hw op v w) (fun u => depths_sumLeft r u)

theorem depths_evalName (ps : List Pair) (x : Str) : Depths T file (evalName file ps x) True := by
  unfold evalName
  have kw : ∀ k, Depths T file (do let i ← EM.keywordId k; pure (.obj (.mk i [] none)) : EM Value) True :=
    fun k => .seq (.keyword k) fun _ => .pure _
  refine .ite (.pure _) (.ite (.pure _) (.ite (.pure _) (.ite (kw _) (.ite (kw _) (.ite (kw _) (.ite (kw _)
    (.ite (.fail hw (by simp)) (.ite ?_ ?_))))))))
  · intro st
    simp only [evalGlobal]
    cases hg : StrMap.get st.globals x with
    | none => exact fun ht => absurd (hw _ ht) (by simp)
    | some v => trivial
  · cases ps.find? (fun p => p.field == x) with
    | none => exact .fail hw (by simp)
    | some p => exact .pure _

theorem depths_evalIndex (oob : Nat → OverError) (vs : List Value) (i : Value) :
    Depths T file (evalIndex file oob vs i) True := by
  cases i with
  | int i =>
    simp only [evalIndex]
    refine .ite ?_ (.fail hw (by simp))
    cases vs[i.toNat]? with
    | none => exact .fail hw (by simp)
    | some v => exact .pure _
  | _ => exact .fail hw (by simp)

omit hw in
theorem depths_depthCheck (d : Nat) : Depths T file (depthCheck file d) (d ≤ 64) := by
  unfold depthCheck
  by_cases h : d > 64
  · rw [if_pos h]
    exact fun _ ht => ⟨by omega, ht⟩
  · rw [if_neg h]
    exact fun _ => by show d ≤ 64; omega

theorem depths_checkNew (ps : List Pair) (par : Option Obj) (tg : Target) :
    Depths T file (checkNew file ps par tg) True := by
  cases tg with
  | field n => simp only [checkNew]; exact .ite (.fail hw (by simp)) (.pure _)
  | parent => simp only [checkNew]; exact .ite (.fail hw (by simp)) (.pure _)
  | global g =>
    intro st
    simp only [checkNew]
    cases hg : StrMap.get st.globals g with
    | some v => exact fun ht => absurd (hw _ ht) (by simp)
    | none => trivial

theorem depths_evalKeyword (v : Value) : Depths T file (evalKeyword file v) True := by
  cases v with
  | obj o =>
    simp only [evalKeyword]
    exact .seq (.keyword _) fun _ => .ite (.pure _) <| .seq (.keyword _) fun _ => .ite (.pure _) <|
      .seq (.keyword _) fun _ => .ite (.pure _) <| .seq (.keyword _) fun _ => .ite (.pure _) (.fail hw (by simp))
  | str s => exact .pure _
  | _ => exact .fail hw (by simp)

end

section
variable {T : SemErr → Prop} {fs : FS} {file : Option Str} {stack : List Str} {load : Loader}

/-- No file read by `load`, while the files in `G` are being read, fails with a watched error. -/
def LoadQuiet (fs : FS) (G : List Str) (T : SemErr → Prop) (load : Loader) : Prop :=
  ∀ stack kind path full st e, G ⊆ stack → fs.resolve path = some full → full ∉ stack →
    load (full :: stack) kind path st = .error e → ¬ T e

theorem LoadQuiet.nothing {fs : FS} {G : List Str} {load : Loader} : LoadQuiet fs G (fun _ => False) load :=
  fun _ _ _ _ _ _ _ _ _ _ h => h

variable {G : List Str} (hw : Watch T file) (hl : LoadQuiet fs G T load) (hG : G ⊆ stack)
include hw hl hG

theorem depths_evalInclude (kind : IncKind) (p : Str) : Depths T file (evalInclude fs file stack load kind p) True := by
  unfold evalInclude
  dsimp only
  cases hres : fs.resolve _ with
  | none => exact .fail hw (by simp)
  | some full =>
    refine .ite (.fail hw (by simp)) (.cond (fun _ => .fail hw (by simp)) fun hfull => ?_)
    intro st
    dsimp only
    cases StrMap.get st.cache full with
    | some v => trivial
    | none =>
      dsimp only
      cases hld : load (full :: stack) kind _ st with
      | ok x => trivial
      | error e => exact fun ht => absurd ht (hl _ _ _ _ _ _ hG hres hfull hld)

mutual
theorem depths_term : ∀ (t : Term) (ps : List Pair) (d : Nat),
    Depths T file (evalTerm fs file stack load t ps d) (Fits d t.levels)
  | .str s, ps, d => by
    simp only [evalTerm, Term.levels]; exact (Depths.pure _).iff (by simp [fits_zero])
  | .int s, ps, d => by
    simp only [evalTerm, Term.levels]; exact (Depths.pure _).iff (by simp [fits_zero])
  | .frac s, ps, d => by
    simp only [evalTerm, Term.levels]; exact (Depths.pure _).iff (by simp [fits_zero])
  | .name x, ps, d => by
    simp only [evalTerm, Term.levels]; exact (depths_evalName hw _ _).iff (by simp [fits_zero])
  | .dot x t, ps, d => by
    simp only [evalTerm, Term.levels]
    refine (Depths.seq (depths_evalName hw _ _) fun v => ?_).iff fits_sign.symm
    cases v with
    | arr i ty vs => exact .then (depths_term t ps _) fun i => depths_evalIndex hw _ _ _
    | tup i ty vs => exact .then (depths_term t ps _) fun i => depths_evalIndex hw _ _ _
    | obj o => exact .ite (.fail hw (by simp)) (.ite (.fail hw (by simp)) (depths_term t o.pairs _))
    | _ => exact .fail hw (by simp)
  | .neg t, ps, d => by
    simp only [evalTerm, Term.levels]
    exact (Depths.then (depths_term t ps _) fun v => depths_applyUn hw _ _).iff fits_sign.symm
  | .pos t, ps, d => by
    simp only [evalTerm, Term.levels]
    exact (Depths.then (depths_term t ps _) fun v => depths_applyUn hw _ _).iff fits_sign.symm
  | .arr es, ps, d => by
    simp only [evalTerm, Term.levels]
    exact (Depths.bind (depths_depthCheck _) fun _ => .then (depths_elems es ps _ .any)
      fun x => .seq .fresh fun _ => .pure _).iff fits_bracket.symm
  | .tup es, ps, d => by
    simp only [evalTerm, Term.levels]
    exact (Depths.bind (depths_depthCheck _) fun _ => .then (depths_items es ps _)
      fun x => .seq .fresh fun _ => .pure _).iff fits_bracket.symm
  | .obj fds, ps, d => by
    simp only [evalTerm, Term.levels]
    exact (Depths.bind (depths_depthCheck _) fun _ => .then (depths_fields fds _ [] none)
      fun x => .seq .fresh fun _ => .pure _).iff fits_bracket.symm
  | .incl e, ps, d => by
    simp only [evalTerm, Term.levels]
    refine (Depths.bind (depths_depthCheck _) fun _ => .then (depths_expr e ps _) fun v => ?_).iff fits_bracket.symm
    refine .seq (depths_evalKeyword hw v) fun k => ?_
    cases k with
    | some k => exact .fail hw (by simp)
    | none => cases v with
      | str p => exact depths_evalInclude hw hl hG _ _
      | _ => exact .fail hw (by simp)
  | .inclAs k e, ps, d => by
    simp only [evalTerm, Term.levels]
    refine (Depths.bind (depths_depthCheck _) fun _ => (Depths.bind (depths_expr k ps _)
      fun v => .seq (depths_evalKeyword hw v) fun k => ?_).iff fits_max.symm).iff fits_bracket.symm
    cases k with
    | none => exact .fail hw (by simp)
    | some k =>
      refine .then (depths_expr e ps _) fun w => ?_
      cases w with
      | str p => exact depths_evalInclude hw hl hG _ _
      | _ => exact .fail hw (by simp)
termination_by structural t => t
theorem depths_expr : ∀ (e : Expr) (ps : List Pair) (d : Nat),
    Depths T file (evalExpr fs file stack load e ps d) (Fits d e.levels)
  | .mk t r, ps, d => by
    simp only [evalExpr, Expr.levels]
    exact (Depths.bind (depths_term t ps d) fun v => .then (depths_chain r v ps d)
      fun x => depths_sumLeft hw _ _).iff fits_max.symm
termination_by structural t => t
theorem depths_chain : ∀ (r : List OpTerm) (v : Value) (ps : List Pair) (d : Nat),
    Depths T file (evalChain fs file stack load r v ps d) (Fits d (OpTerm.levelsL r))
  | [], v, ps, d => by
    simp only [evalChain, OpTerm.levelsL]; exact (Depths.pure _).iff (by simp [fits_zero])
  | .mk op t :: r, v, ps, d => by
    simp only [evalChain, OpTerm.levelsL]
    refine (Depths.bind (depths_term t ps d) fun w => .ite ?_ ?_).iff fits_max.symm
    · exact .seq (depths_applyBin hw _ _ _) fun u => depths_chain r u ps d
    · exact .then (depths_chain r w ps d) fun x => .pure _
termination_by structural t => t
theorem depths_elems : ∀ (es : List Expr) (ps : List Pair) (d : Nat) (t : Ty),
    Depths T file (evalElems fs file stack load es ps d t) (Fits d (Expr.levelsL es))
  | [], ps, d, t => by
    simp only [evalElems, Expr.levelsL]; exact (Depths.pure _).iff (by simp [fits_zero])
  | e :: es, ps, d, t => by
    simp only [evalElems, Expr.levelsL]
    refine (Depths.bind (depths_expr e ps d) fun v => ?_).iff fits_max.symm
    cases Ty.mostSpecific t v.getType with
    | none => exact .fail hw (by simp)
    | some x => exact .then (depths_elems es ps d x.1) fun x => .pure _
termination_by structural t => t
theorem depths_items : ∀ (es : List Expr) (ps : List Pair) (d : Nat),
    Depths T file (evalItems fs file stack load es ps d) (Fits d (Expr.levelsL es))
  | [], ps, d => by
    simp only [evalItems, Expr.levelsL]; exact (Depths.pure _).iff (by simp [fits_zero])
  | e :: es, ps, d => by
    simp only [evalItems, Expr.levelsL]
    exact (Depths.bind (depths_expr e ps d) fun v => .then (depths_items es ps d) fun x => .pure _).iff fits_max.symm
termination_by structural t => t
theorem depths_fields : ∀ (fds : List Field) (d : Nat) (ps : List Pair) (par : Option Obj),
    Depths T file (evalFields fs file stack load fds d ps par) (Fits d (Field.levelsL fds))
  | [], d, ps, par => by
    simp only [evalFields, Field.levelsL]; exact (Depths.pure _).iff (by simp [fits_zero])
  | .mk tg e :: fds, d, ps, par => by
    simp only [evalFields, Field.levelsL]
    refine (Depths.seq (depths_checkNew hw _ _ _) fun _ => .bind (depths_expr e ps d) fun v => ?_).iff fits_max.symm
    cases tg with
    | field f => exact depths_fields fds d _ _
    | global g => exact .seq (.ok fun _ => ⟨_, rfl⟩) fun _ => depths_fields fds d _ _
    | parent =>
      cases v with
      | obj o => exact depths_fields fds d _ _
      | _ => exact .fail hw (by simp)
termination_by structural t => t
end

end

/-- Files that are read while the files in `G` are being read have errors of their own. -/
theorem loadN_quiet (fs : FS) {G : List Str} {T : SemErr → Prop} (h0 : ∀ e, T e → e = .sem none .maxDepth ∨ ∃ p full,
    e = .sem (some p) .maxDepth ∧ fs.resolve p = some full ∧ full ∈ G) : ∀ n, LoadQuiet fs G T (loadN fs n)
  | 0, stack, kind, path, full, st, e, hG, hres, hfull, h => by
    simp only [loadN] at h
    cases h
    intro ht
    rcases h0 _ ht with h | ⟨p, full, h, -⟩ <;> cases h
  | n + 1, stack, kind, path, full, st, e, hG, hres, hfull, h => by
    have ih := loadN_quiet fs h0 n
    intro ht
    have hpath : ∀ k, ¬ T (.sem (some path) k) := by
      intro k hk
      rcases h0 _ hk with h | ⟨p, full', h, h1, h2⟩
      · cases h
      · cases h
        rw [hres] at h1
        cases h1
        exact hfull (hG h2)
    have hw : Watch T (some path) := fun k hk => absurd hk (hpath k)
    have hG' : G ⊆ full :: stack := fun x hx => List.mem_cons_of_mem _ (hG hx)
    have own : ∀ (m : EM Value) (F : Prop), Depths T (some path) m F → EM.ownGlobals m st = .error e → False := by
      intro m F hm he
      unfold EM.ownGlobals at he
      have := hm { st with globals := [] }
      cases hms : m { st with globals := [] } with
      | ok x => rw [hms] at he; cases he
      | error e' =>
        rw [hms] at he this
        cases he
        exact hpath _ (this ht).2
    have ioq : ∀ msg, ¬ T (.io msg) := fun msg hk => by rcases h0 _ hk with h | ⟨p, full', h, -⟩ <;> cases h
    have mq : ¬ T .malformed := fun hk => by rcases h0 _ hk with h | ⟨p, full', h, -⟩ <;> cases h
    cases htext : fs.read path with
    | error msg => rw [loadN_io htext] at h; cases h; exact ioq _ ht
    | ok text =>
      by_cases hk : kind = .str
      · subst hk; rw [loadN_str htext] at h; cases h
      by_cases hx : FileText kind text
      · cases kind with
        | str => exact hk rfl
        | obj =>
          rw [loadN_obj htext n (full :: stack) hx] at h
          exact own _ _ (.then (.then (depths_fields hw ih hG' _ 1 [] none) fun _ => .seq .fresh fun _ => .pure _)
            fun _ => .pure _) h
        | arr =>
          rw [loadN_arr htext n (full :: stack) hx] at h
          exact own _ _ (.then (depths_elems hw ih hG' _ [] 1 .any) fun _ => .seq .fresh fun _ => .pure _) h
        | tup =>
          rw [loadN_tup htext n (full :: stack) hx] at h
          exact own _ _ (.then (depths_items hw ih hG' _ [] 1) fun _ => .seq .fresh fun _ => .pure _) h
      · rw [loadN_malformed htext n (full :: stack) hx] at h; cases h; exact mq ht

end

end Over

namespace Over

section
variable {fs : FS} {file : Option Str} {stack : List Str} {load : Loader}

theorem lead_check {d : Nat} {α : Type} {f : Unit → EM α} {L : Nat} {st : ESt} (h : d + (1 + L) > 64)
    (hf : L ≠ 0 → d + 1 + L > 64 → f () st = .error (.sem file .maxDepth)) :
    (depthCheck file (d + 1) >>= f) st = .error (.sem file .maxDepth) := by
  by_cases h0 : d + 1 > 64
  · exact EM.bind_err (by simp [depthCheck, h0, EM.fail])
  · have : depthCheck file (d + 1) st = .ok ((), st) := by simp only [depthCheck, h0, if_false]; rfl
    rw [EM.bind_ok this]
    exact hf (by omega) (by omega)

mutual
theorem lead_term : ∀ (t : Term) (ps : List Pair) (d : Nat) (st : ESt), t.leadLevels ≠ 0 → d + t.leadLevels > 64 →
    evalTerm fs file stack load t ps d st = .error (.sem file .maxDepth)
  | .str _, ps, d, st, h, _ => absurd rfl h
  | .int _, ps, d, st, h, _ => absurd rfl h
  | .frac _, ps, d, st, h, _ => absurd rfl h
  | .name _, ps, d, st, h, _ => absurd rfl h
  | .dot _ _, ps, d, st, h, _ => absurd rfl h
  | .neg t, ps, d, st, h, h1 => by
    simp only [Term.leadLevels, signLevels] at h h1
    split at h <;> first | omega | skip
    simp only [evalTerm]
    exact EM.bind_err (lead_term t ps (d + 1) st (by assumption) (by split at h1 <;> omega))
  | .pos t, ps, d, st, h, h1 => by
    simp only [Term.leadLevels, signLevels] at h h1
    split at h <;> first | omega | skip
    simp only [evalTerm]
    exact EM.bind_err (lead_term t ps (d + 1) st (by assumption) (by split at h1 <;> omega))
  | .arr [], ps, d, st, _, h1 => by
    simp only [evalTerm]
    exact lead_check (L := 0) h1 fun h0 _ => absurd rfl h0
  | .arr (e :: es), ps, d, st, _, h1 => by
    simp only [evalTerm]
    refine lead_check h1 fun h0 h2 => ?_
    simp only [evalElems]
    exact EM.bind_err (EM.bind_err (lead_expr e ps (d + 1) st h0 h2))
  | .tup [], ps, d, st, _, h1 => by
    simp only [evalTerm]
    exact lead_check (L := 0) h1 fun h0 _ => absurd rfl h0
  | .tup (e :: es), ps, d, st, _, h1 => by
    simp only [evalTerm]
    refine lead_check h1 fun h0 h2 => ?_
    simp only [evalItems]
    exact EM.bind_err (EM.bind_err (lead_expr e ps (d + 1) st h0 h2))
  | .obj [], ps, d, st, _, h1 => by
    simp only [evalTerm]
    exact lead_check (L := 0) h1 fun h0 _ => absurd rfl h0
  | .obj (f :: fds), ps, d, st, _, h1 => by
    simp only [evalTerm]
    refine lead_check h1 fun h0 h2 => ?_
    exact EM.bind_err (lead_field f fds (d + 1) st h0 h2)
  | .incl e, ps, d, st, _, h1 => by
    simp only [evalTerm]
    refine lead_check h1 fun h0 h2 => ?_
    exact EM.bind_err (lead_expr e ps (d + 1) st h0 h2)
  | .inclAs k e, ps, d, st, _, h1 => by
    simp only [evalTerm]
    refine lead_check h1 fun h0 h2 => ?_
    exact EM.bind_err (lead_expr k ps (d + 1) st h0 h2)
termination_by structural t => t
theorem lead_expr : ∀ (e : Expr) (ps : List Pair) (d : Nat) (st : ESt), e.leadLevels ≠ 0 → d + e.leadLevels > 64 →
    evalExpr fs file stack load e ps d st = .error (.sem file .maxDepth)
  | .mk t r, ps, d, st, h, h1 => by
    simp only [evalExpr]
    exact EM.bind_err (lead_term t ps d st h h1)
termination_by structural t => t
theorem lead_field : ∀ (f : Field) (fds : List Field) (d : Nat) (st : ESt), f.leadLevels ≠ 0 → d + f.leadLevels > 64 →
    evalFields fs file stack load (f :: fds) d [] none st = .error (.sem file .maxDepth)
  | .mk (.field f) e, fds, d, st, h, h1 => by
    simp only [evalFields]
    have : checkNew file [] none (.field f) st = .ok ((), st) := rfl
    rw [EM.bind_ok this]
    exact EM.bind_err (lead_expr e [] d st h h1)
  | .mk .parent e, fds, d, st, h, h1 => by
    simp only [evalFields]
    have : checkNew file [] none .parent st = .ok ((), st) := rfl
    rw [EM.bind_ok this]
    exact EM.bind_err (lead_expr e [] d st h h1)
  | .mk (.global g) e, fds, d, st, h, _ => absurd rfl h
termination_by structural t => t
end

end

end Over
