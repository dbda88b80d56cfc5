import Verif.Lemmas.Include
import Mathlib.Logic.Relation

/-! # Every plain include of a file that has been read has been read -/

set_option linter.unusedSectionVars false

namespace Over

section
variable [Unicode]

/-- No infinite chain of includes starts at the file. -/
def Grounded (fs : FS) (F : Str) : Prop := Acc (fun B A => Includes fs A B) F

/-- … at any of the files read so far. -/
def AllGrounded (fs : FS) (C : StrMap Value) : Prop := ∀ k v, StrMap.get C k = some v → Grounded fs k

/-- The include leads to a file that has been read. -/
def Cached (fs : FS) (file : Option Str) (C : StrMap Value) (p : Str) : Prop :=
  ∃ F v, Leads fs (meantIn file p) F ∧ StrMap.get C F = some v

/-- A successful run keeps the files read so far and has read the files to which these paths lead. -/
def Visits (fs : FS) (file : Option Str) {α : Type} (m : EM α) (L : List Str) : Prop :=
  ∀ st a st', m st = .ok (a, st') → (∀ k v, StrMap.get st.cache k = some v → StrMap.get st'.cache k = some v) ∧
    (∀ p ∈ L, Cached fs file st'.cache p) ∧ (AllGrounded fs st.cache → AllGrounded fs st'.cache)

section
variable {fs : FS} {file : Option Str} {α β : Type}

theorem Visits.bind {m : EM α} {f : α → EM β} {L L' : List Str} (h : Visits fs file m L)
    (hf : ∀ a, Visits fs file (f a) L') : Visits fs file (m >>= f) (L ++ L') := by
  intro st b st' hb
  cases hm : m st with
  | error e => rw [EM.bind_err hm] at hb; cases hb
  | ok x =>
    obtain ⟨a, st1⟩ := x
    rw [EM.bind_ok hm] at hb
    obtain ⟨h1, h2, h3⟩ := h _ _ _ hm
    obtain ⟨h4, h5, h6⟩ := hf a _ _ _ hb
    refine ⟨fun k v e => h4 k v (h1 k v e), ?_, fun h => h6 (h3 h)⟩
    intro p hp
    rcases List.mem_append.1 hp with hp | hp
    · obtain ⟨F, v, h7, h8⟩ := h2 p hp
      exact ⟨F, v, h7, h4 _ _ h8⟩
    · exact h5 p hp

theorem Visits.seq {m : EM α} {f : α → EM β} {L : List Str} (h : Visits fs file m [])
    (hf : ∀ a, Visits fs file (f a) L) : Visits fs file (m >>= f) L := h.bind hf

theorem Visits.then {m : EM α} {f : α → EM β} {L : List Str} (h : Visits fs file m L)
    (hf : ∀ a, Visits fs file (f a) []) : Visits fs file (m >>= f) L := by
  have := h.bind hf
  simpa using this

theorem Visits.fail {L : List Str} {g : Option Str} {k : SemKind} : Visits fs file (EM.fail g k : EM α) L := by
  intro st a st' h; cases h

/-- The run does not touch the files. -/
def Quiet (m : EM α) : Prop := ∀ st a st', m st = .ok (a, st') → st'.cache = st.cache

theorem Quiet.visits {m : EM α} (h : Quiet m) : Visits fs file m [] := by
  intro st a st' hm
  rw [h _ _ _ hm]
  exact ⟨fun _ _ h => h, by simp, fun h => h⟩

theorem Quiet.pure (a : α) : Quiet (Pure.pure a : EM α) := by intro st b st' h; cases h; rfl
theorem Quiet.fail {f : Option Str} {k : SemKind} : Quiet (EM.fail f k : EM α) := by intro st b st' h; cases h
theorem Quiet.fresh : Quiet EM.fresh := by intro st b st' h; cases h; rfl
theorem Quiet.keyword (k : IncKind) : Quiet (EM.keywordId k) := fun st i st' h => keywordId_cache k st st' i h

theorem Quiet.bind {m : EM α} {f : α → EM β} (h : Quiet m) (hf : ∀ a, Quiet (f a)) : Quiet (m >>= f) := by
  intro st b st' hb
  cases hm : m st with
  | error e => rw [EM.bind_err hm] at hb; cases hb
  | ok x =>
    obtain ⟨a, st1⟩ := x
    rw [EM.bind_ok hm] at hb
    exact (hf a _ _ _ hb).trans (h _ _ _ hm)

theorem Quiet.ite {c : Prop} [Decidable c] {a b : EM α} (h1 : Quiet a) (h2 : Quiet b) : Quiet (if c then a else b) := by
  by_cases h : c
  · rw [if_pos h]; exact h1
  · rw [if_neg h]; exact h2

theorem Visits.ite {c : Prop} [Decidable c] {a b : EM α} {L : List Str} (h1 : Visits fs file a L) (h2 : Visits fs file b L) :
    Visits fs file (if c then a else b) L := by
  by_cases h : c
  · rw [if_pos h]; exact h1
  · rw [if_neg h]; exact h2

end

theorem quiet_applyBin (f : Option Str) (op : BinOp) (a b : Value) : Quiet (applyBin f op a b) := by
  unfold applyBin
  cases binSem op a b with
  | val v => exact .pure _
  | newArr t vs => exact .bind .fresh fun _ => .pure _
  | bad t1 t2 => exact .fail
  | divisionByZero => exact .fail

theorem quiet_applyUn (f : Option Str) (op : UnOp) (a : Value) : Quiet (applyUn f op a) := by
  cases op <;> cases a <;> first | exact .pure _ | exact .fail

theorem quiet_sumLeft (f : Option Str) : ∀ (l : List (BinOp × Value)) (v : Value), Quiet (sumLeft f v l)
  | [], v => .pure _
  | (op, w) :: r, v => by
    simp only [sumLeft]
    exact .bind (quiet_applyBin f op v w) (fun u => quiet_sumLeft f r u)

theorem quiet_evalName (f : Option Str) (ps : List Pair) (x : Str) : Quiet (evalName f ps x) := by
  unfold evalName
  have kw : ∀ k, Quiet (do let i ← EM.keywordId k; pure (.obj (.mk i [] none)) : EM Value) :=
    fun k => .bind (.keyword k) fun _ => .pure _
  refine .ite (.pure _) (.ite (.pure _) (.ite (.pure _) (.ite (kw _) (.ite (kw _) (.ite (kw _) (.ite (kw _)
    (.ite .fail (.ite ?_ ?_))))))))
  · intro st a st' h
    simp only [evalGlobal] at h
    cases hg : StrMap.get st.globals x with
    | none => rw [hg] at h; cases h
    | some v => rw [hg] at h; cases h; rfl
  · cases ps.find? (fun p => p.field == x) with
    | none => exact .fail
    | some p => exact .pure _

theorem quiet_evalIndex (f : Option Str) (oob : Nat → OverError) (vs : List Value) (i : Value) :
    Quiet (evalIndex f oob vs i) := by
  cases i with
  | int i =>
    simp only [evalIndex]
    refine .ite ?_ .fail
    cases vs[i.toNat]? with
    | none => exact .fail
    | some v => exact .pure _
  | _ => exact .fail

theorem quiet_depthCheck (f : Option Str) (d : Nat) : Quiet (depthCheck f d) := by
  unfold depthCheck
  exact .ite .fail (.pure _)

theorem quiet_checkNew (f : Option Str) (ps : List Pair) (par : Option Obj) (tg : Target) :
    Quiet (checkNew f ps par tg) := by
  cases tg with
  | field n => simp only [checkNew]; exact .ite .fail (.pure _)
  | parent => simp only [checkNew]; exact .ite .fail (.pure _)
  | global g =>
    intro st a st' h
    simp only [checkNew] at h
    cases hg : StrMap.get st.globals g with
    | some v => rw [hg] at h; cases h
    | none => rw [hg] at h; cases h; rfl

theorem quiet_setGlobal (g : Str) (v : Value) : Quiet (setGlobal g v) := by
  intro st a st' h; cases h; rfl

theorem append_some {x y : Option (List Str)} {l : List Str} (h : (do return (← x) ++ (← y) : Option (List Str)) = some l) :
    ∃ a b, x = some a ∧ y = some b ∧ l = a ++ b := by
  cases x with
  | none => cases h
  | some a =>
    cases y with
    | none => cases h
    | some b => cases h; exact ⟨a, b, rfl, rfl, rfl⟩

section
variable {fs : FS} {file : Option Str} {stack : List Str} {load : Loader}
variable (hinc : ∀ p, Visits fs file (evalInclude fs file stack load .obj p) [p])
include hinc

mutual
theorem visits_term : ∀ (t : Term) (L : List Str) (ps : List Pair) (d : Nat), t.includes = some L →
    Visits fs file (evalTerm fs file stack load t ps d) L
  | .str s, L, ps, d, h => by
    simp only [Term.includes, Option.some.injEq] at h; subst h
    simp only [evalTerm]; exact (Quiet.pure _).visits
  | .int s, L, ps, d, h => by
    simp only [Term.includes, Option.some.injEq] at h; subst h
    simp only [evalTerm]; exact (Quiet.pure _).visits
  | .frac s, L, ps, d, h => by
    simp only [Term.includes, Option.some.injEq] at h; subst h
    simp only [evalTerm]; exact (Quiet.pure _).visits
  | .name x, L, ps, d, h => by
    simp only [Term.includes, Option.some.injEq] at h; subst h
    simp only [evalTerm]; exact (quiet_evalName _ _ _).visits
  | .dot x t, L, ps, d, h => by
    simp only [Term.includes] at h
    simp only [evalTerm]
    refine .seq (quiet_evalName _ _ _).visits fun v => ?_
    cases v with
    | arr i ty vs => exact .then (visits_term t L ps _ h) fun i => (quiet_evalIndex _ _ _ _).visits
    | tup i ty vs => exact .then (visits_term t L ps _ h) fun i => (quiet_evalIndex _ _ _ _).visits
    | obj o => exact .ite .fail (.ite .fail (visits_term t L o.pairs _ h))
    | _ => exact .fail
  | .neg t, L, ps, d, h => by
    simp only [Term.includes] at h
    simp only [evalTerm]; exact .then (visits_term t L ps _ h) fun v => (quiet_applyUn _ _ _).visits
  | .pos t, L, ps, d, h => by
    simp only [Term.includes] at h
    simp only [evalTerm]; exact .then (visits_term t L ps _ h) fun v => (quiet_applyUn _ _ _).visits
  | .arr es, L, ps, d, h => by
    simp only [Term.includes] at h
    simp only [evalTerm]
    exact .seq (quiet_depthCheck _ _).visits fun _ => .then (visits_elems es L ps _ .any h)
      fun x => (Quiet.bind .fresh fun _ => .pure _).visits
  | .tup es, L, ps, d, h => by
    simp only [Term.includes] at h
    simp only [evalTerm]
    exact .seq (quiet_depthCheck _ _).visits fun _ => .then (visits_items es L ps _ h)
      fun x => (Quiet.bind .fresh fun _ => .pure _).visits
  | .obj fds, L, ps, d, h => by
    simp only [Term.includes] at h
    simp only [evalTerm]
    exact .seq (quiet_depthCheck _ _).visits fun _ => .then (visits_fields fds L _ [] none h)
      fun x => (Quiet.bind .fresh fun _ => .pure _).visits
  | .incl (.mk (.str p) []), L, ps, d, h => by
    simp only [Term.includes, Option.some.injEq] at h; subst h
    simp only [evalTerm]
    refine .seq (quiet_depthCheck _ _).visits fun _ => ?_
    intro st v st' hv
    have hs : evalExpr fs file stack load (.mk (.str p) []) ps (d + 1) st = .ok (.str p, st) := by
      rw [evalExpr_term]; simp only [evalTerm]; rfl
    rw [EM.bind_ok hs] at hv
    exact hinc p st v st' hv
  | .inclAs k e, L, ps, d, h => by simp [Term.includes] at h
  | .incl (.mk (.str p) (o :: r)), L, ps, d, h => by simp [Term.includes] at h
  | .incl (.mk (.int _) _), L, ps, d, h => by simp [Term.includes] at h
  | .incl (.mk (.frac _) _), L, ps, d, h => by simp [Term.includes] at h
  | .incl (.mk (.name _) _), L, ps, d, h => by simp [Term.includes] at h
  | .incl (.mk (.dot _ _) _), L, ps, d, h => by simp [Term.includes] at h
  | .incl (.mk (.neg _) _), L, ps, d, h => by simp [Term.includes] at h
  | .incl (.mk (.pos _) _), L, ps, d, h => by simp [Term.includes] at h
  | .incl (.mk (.arr _) _), L, ps, d, h => by simp [Term.includes] at h
  | .incl (.mk (.tup _) _), L, ps, d, h => by simp [Term.includes] at h
  | .incl (.mk (.obj _) _), L, ps, d, h => by simp [Term.includes] at h
  | .incl (.mk (.incl _) _), L, ps, d, h => by simp [Term.includes] at h
  | .incl (.mk (.inclAs _ _) _), L, ps, d, h => by simp [Term.includes] at h
termination_by structural t => t
theorem visits_expr : ∀ (e : Expr) (L : List Str) (ps : List Pair) (d : Nat), e.includes = some L →
    Visits fs file (evalExpr fs file stack load e ps d) L
  | .mk t r, L, ps, d, h => by
    simp only [Expr.includes] at h
    obtain ⟨a, b, h1, h2, rfl⟩ := append_some h
    simp only [evalExpr]
    exact .bind (visits_term t a ps d h1) fun v => .then (visits_chain r b v ps d h2)
      fun x => (quiet_sumLeft _ _ _).visits
termination_by structural t => t
theorem visits_chain : ∀ (r : List OpTerm) (L : List Str) (v : Value) (ps : List Pair) (d : Nat),
    OpTerm.includesL r = some L → Visits fs file (evalChain fs file stack load r v ps d) L
  | [], L, v, ps, d, h => by
    simp only [OpTerm.includesL, Option.some.injEq] at h; subst h
    simp only [evalChain]; exact (Quiet.pure _).visits
  | .mk op t :: r, L, v, ps, d, h => by
    simp only [OpTerm.includesL] at h
    obtain ⟨a, b, h1, h2, rfl⟩ := append_some h
    simp only [evalChain]
    refine .bind (visits_term t a ps d h1) fun w => .ite ?_ ?_
    · exact .seq (quiet_applyBin _ _ _ _).visits fun u => visits_chain r b u ps d h2
    · exact .then (visits_chain r b w ps d h2) fun x => (Quiet.pure _).visits
termination_by structural t => t
theorem visits_elems : ∀ (es : List Expr) (L : List Str) (ps : List Pair) (d : Nat) (t : Ty),
    Expr.includesL es = some L → Visits fs file (evalElems fs file stack load es ps d t) L
  | [], L, ps, d, t, h => by
    simp only [Expr.includesL, Option.some.injEq] at h; subst h
    simp only [evalElems]; exact (Quiet.pure _).visits
  | e :: es, L, ps, d, t, h => by
    simp only [Expr.includesL] at h
    obtain ⟨a, b, h1, h2, rfl⟩ := append_some h
    simp only [evalElems]
    refine .bind (visits_expr e a ps d h1) fun v => ?_
    cases Ty.mostSpecific t v.getType with
    | none => exact .fail
    | some x => exact .then (visits_elems es b ps d x.1 h2) fun x => (Quiet.pure _).visits
termination_by structural t => t
theorem visits_items : ∀ (es : List Expr) (L : List Str) (ps : List Pair) (d : Nat),
    Expr.includesL es = some L → Visits fs file (evalItems fs file stack load es ps d) L
  | [], L, ps, d, h => by
    simp only [Expr.includesL, Option.some.injEq] at h; subst h
    simp only [evalItems]; exact (Quiet.pure _).visits
  | e :: es, L, ps, d, h => by
    simp only [Expr.includesL] at h
    obtain ⟨a, b, h1, h2, rfl⟩ := append_some h
    simp only [evalItems]
    exact .bind (visits_expr e a ps d h1) fun v => .then (visits_items es b ps d h2) fun x => (Quiet.pure _).visits
termination_by structural t => t
theorem visits_fields : ∀ (fds : List Field) (L : List Str) (d : Nat) (ps : List Pair) (par : Option Obj),
    Field.includes fds = some L → Visits fs file (evalFields fs file stack load fds d ps par) L
  | [], L, d, ps, par, h => by
    simp only [Field.includes, Option.some.injEq] at h; subst h
    simp only [evalFields]; exact (Quiet.pure _).visits
  | .mk tg e :: fds, L, d, ps, par, h => by
    simp only [Field.includes] at h
    obtain ⟨a, b, h1, h2, rfl⟩ := append_some h
    simp only [evalFields]
    refine .seq (quiet_checkNew _ _ _ _).visits fun _ => .bind (visits_expr e a ps d h1) fun v => ?_
    cases tg with
    | field f => exact visits_fields fds b d _ _ h2
    | global g => exact .seq (quiet_setGlobal _ _).visits fun _ => visits_fields fds b d _ _ h2
    | parent =>
      cases v with
      | obj o => exact visits_fields fds b d _ _ h2
      | _ => exact .fail
termination_by structural t => t
end

end

/-! ## Files -/

theorem Leads.read_eq {fs : FS} {path path' F : Str} (h : Leads fs path F) (h' : Leads fs path' F) :
    fs.read path = fs.read path' := by
  obtain ⟨h1, ⟨r, h2⟩, -⟩ := h
  obtain ⟨h1', -, -⟩ := h'
  simp [FS.read, h1, h1', h2]

theorem Leads.unique {fs : FS} {path F G : Str} (h : Leads fs path F) (h' : Leads fs path G) : F = G := by
  have := h.1.symm.trans h'.1
  simpa using this

/-- Reading a file that uses plain includes. -/
theorem grounded_of_visits {fs : FS} (hp : fs.Plain) {path F text : Str} {d : List Field} (hF : Leads fs path F)
    (ht : fs.read path = .ok text) (hd : SpDoc d text) {L : List Str} (hL : Field.includes d = some L) {C : StrMap Value}
    (hC : ∀ p ∈ L, Cached fs (some path) C p) (hg : AllGrounded fs C) : Grounded fs F := by
  refine Acc.intro _ ?_
  rintro B ⟨path', text', d', l', p, h1, h2, h3, h4, h5, h6⟩
  rw [← hF.read_eq h1, ht] at h2
  cases h2
  cases c49_one_document _ _ _ hd h3
  rw [hL] at h4
  cases h4
  obtain ⟨G, v, h7, h8⟩ := hC p h5
  have h9 : fs.resolve (beside path p) = fs.resolve (beside path' p) := hp.target _ _ _ _ hF h1
  have : G = B := by
    have h10 : fs.resolve (beside path p) = some G := h7.1
    rw [h9, h6.1] at h10
    cases h10
    rfl
  subst this
  exact hg _ _ h8

/-- Including by `<"path">`, when reading the file does what it should. -/
theorem visits_include {fs : FS} {file : Option Str} {stack : List Str} {load : Loader}
    (hl : ∀ stack path F, Leads fs path F → Visits fs none (load stack .obj path) [] ∧
      ∀ st v st', load stack .obj path st = .ok (v, st') → AllGrounded fs st.cache → Grounded fs F) (p : Str) :
    Visits fs file (evalInclude fs file stack load .obj p) [p] := by
  intro st v st' h
  obtain ⟨F, hF, -, h3⟩ := evalInclude_ok h
  unfold evalCached at h3
  cases hc : StrMap.get st.cache F with
  | some w =>
    simp only [hc] at h3
    cases h3
    exact ⟨fun _ _ h => h, by simpa using ⟨F, _, hF, hc⟩, fun h => h⟩
  | none =>
    simp only [hc] at h3
    cases hld : load (F :: stack) .obj (meantIn file p) st with
    | error e => rw [hld] at h3; cases h3
    | ok x =>
      obtain ⟨w, st1⟩ := x
      rw [hld] at h3
      cases h3
      obtain ⟨h1, h2⟩ := hl (F :: stack) _ F hF
      obtain ⟨h4, -, h6⟩ := h1 _ _ _ hld
      refine ⟨?_, ?_, ?_⟩
      · intro k x hx
        have : k ≠ F := by rintro rfl; rw [hc] at hx; cases hx
        show StrMap.get (StrMap.insert _ _ _) k = _
        rw [StrMap.get_insert_ne _ _ this]
        exact h4 k x hx
      · simpa using ⟨F, _, hF, StrMap.get_insert_self _ _ _⟩
      · intro hg k x hx
        by_cases hk : k = F
        · subst hk
          exact h2 _ _ _ hld hg
        · change StrMap.get (StrMap.insert _ _ _) k = _ at hx
          rw [StrMap.get_insert_ne _ _ hk] at hx
          exact h6 hg k x hx

theorem visits_loadN {fs : FS} (hp : fs.Plain) : ∀ n stack path F, Leads fs path F →
    Visits fs none (loadN fs n stack .obj path) [] ∧
      ∀ st v st', loadN fs n stack .obj path st = .ok (v, st') → AllGrounded fs st.cache → Grounded fs F
  | 0, stack, path, F, hF => by
    have key : ∀ st v st', ¬ loadN fs 0 stack .obj path st = .ok (v, st') := by
      intro st v st' h
      simp only [loadN] at h
      cases h
    exact ⟨fun st v st' h => absurd h (key st v st'), fun st v st' h => absurd h (key st v st')⟩
  | n + 1, stack, path, F, hF => by
    have ih := visits_loadN hp n
    have key : ∀ st v st', loadN fs (n + 1) stack .obj path st = .ok (v, st') →
        (∀ k v, StrMap.get st.cache k = some v → StrMap.get st'.cache k = some v) ∧
        (AllGrounded fs st.cache → AllGrounded fs st'.cache ∧ Grounded fs F) := by
      intro st v st' h
      cases htext : fs.read path with
      | error msg => rw [loadN_io htext] at h; cases h
      | ok text =>
        by_cases hx : FileText .obj text
        swap
        · rw [loadN_malformed htext n stack hx] at h; cases h
        rw [loadN_obj htext n stack hx] at h
        have hd : SpDoc (Exists.choose hx) text := Exists.choose_spec hx
        obtain ⟨L, hL⟩ := hp.includes path text _ htext hd
        unfold EM.ownGlobals at h
        generalize Exists.choose hx = d at *
        cases hm : (do let o ← evalDoc fs (some path) stack (loadN fs n) d; pure (Value.obj o) : EM Value)
            { st with globals := [] } with
        | error e => rw [hm] at h; cases h
        | ok x =>
          obtain ⟨w, st1⟩ := x
          rw [hm] at h
          cases h
          obtain ⟨o, h1, -⟩ := bind_pure_ok hm
          unfold evalDoc at h1
          have hv : Visits fs (some path) (do
              let x ← evalFields fs (some path) stack (loadN fs n) d 1 [] none
              let id ← EM.fresh
              pure (Obj.mk id x.1 x.2)) L :=
            .then (visits_fields (fun p => visits_include ih p) d L 1 [] none hL)
              fun x => (Quiet.bind .fresh fun _ => .pure _).visits
          obtain ⟨h2, h3, h4⟩ := hv _ _ _ h1
          exact ⟨h2, fun hg => ⟨h4 hg, grounded_of_visits hp hF htext hd hL h3 (h4 hg)⟩⟩
    refine ⟨?_, fun st v st' h hg => ((key st v st' h).2 hg).2⟩
    intro st v st' h
    exact ⟨(key st v st' h).1, by simp, fun hg => ((key st v st' h).2 hg).1⟩

end

end Over
