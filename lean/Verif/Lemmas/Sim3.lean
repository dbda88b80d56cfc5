import Verif.Lemmas.Sim2

/-!
# The parser follows the evaluator: containers
-/

set_option linter.unusedSectionVars false

namespace Over

theorem EM.bind_assoc {α β γ : Type} (m : EM α) (f : α → EM β) (g : β → EM γ) :
    (m >>= f >>= g) = (m >>= fun a => f a >>= g) := by
  funext st
  show EM.bind (EM.bind m f) g st = EM.bind m (fun a => EM.bind (f a) g) st
  unfold EM.bind
  cases m st <;> rfl

theorem EM.pure_bind {α β : Type} (a : α) (f : α → EM β) : (pure a >>= f) = f a := rfl

theorem EM.fail_bind {α β : Type} (file : Option Str) (k : SemKind) (f : α → EM β) :
    ((EM.fail file k : EM α) >>= f) = EM.fail file k := rfl

section
variable [Unicode] [PanicOk]
variable {fs : FS} {main : Option Str × Str} {env : Env} {n : Nat} {pv : PV}

theorem checkDepth_sim {s : PState} (ha : At env s) (d : Nat) :
    sim (checkDepth d) (depthCheck env.file d) s (fun _ _ s' => s' = s) := by
  unfold checkDepth depthCheck
  by_cases h : d > 64
  · rw [if_pos (show d > maxDepth from h), if_pos h]
    exact sim_getPos (sim_fail ha.file .maxDepth)
  · rw [if_neg (show ¬ d > maxDepth from h), if_neg h]
    exact sim_pure rfl

/-! ## Splitting off the leading gap -/

theorem SpFields.strip {eof : Bool} {fds : List Field} {r : Str} (h : SpFields eof fds r) :
    (fds = [] ∧ LastGap eof r) ∨ (fds ≠ [] ∧ ∃ g r', r = g ++ r' ∧ Gap g ∧ SpFields eof fds r' ∧
      ∃ c t, r' = c :: t ∧ TermStart c) := by
  cases h with
  | nil h => exact .inl ⟨rfl, h⟩
  | cons hg ht hg' he hf hs =>
    refine .inr ⟨by simp, _, _, rfl, hg, ?_, ?_⟩
    · exact .cons (g := []) .nil ht hg' he hf hs
    · obtain ⟨c, t, rfl, hc⟩ := ht.head
      exact ⟨c, _, rfl, hc⟩

theorem SpItems.strip {eof : Bool} {es : List Expr} {r : Str} (h : SpItems eof es r) :
    (es = [] ∧ LastGap eof r) ∨ (∃ e es' g s r', es = e :: es' ∧ r = g ++ (s ++ r') ∧ Gap g ∧ SpExpr e s ∧
      SpItems eof es' r' ∧ (es' = [] ∨ StartsSeparated r')) := by
  cases h with
  | nil h => exact .inl ⟨rfl, h⟩
  | cons hg he hi hs => exact .inr ⟨_, _, _, _, _, rfl, rfl, hg, he, hi, hs⟩

theorem TermStart.found {c : Char} {r : Str} (h : TermStart c) : FoundAt (c :: r) :=
  ⟨c, r, rfl, h.1, h.2.1⟩

/-- A gap in front of a found character is empty. -/
theorem gap_found {g r : Str} (hg : Gap g) (h : FoundAt (g ++ r)) : g = [] := by
  rcases gap_head hg with rfl | ⟨d, t, rfl, hd⟩
  · rfl
  · exfalso
    obtain ⟨c, r', h1, h2, h3⟩ := h
    simp only [List.cons_append, List.cons.injEq] at h1
    obtain ⟨rfl, -⟩ := h1
    rcases hd with hd | hd
    · rw [h2] at hd; cases hd
    · exact h3 hd

/-- What encloses a body: the end of the file or a closing bracket. -/
def Closes (eof : Bool) (brace : Option Char) (tl : Str) : Prop :=
  (eof = true ∧ brace = none ∧ tl = []) ∨
    ∃ c r, eof = false ∧ brace = some c ∧ tl = c :: r ∧ isEndDelimiter c = true

theorem Closes.exprEnd {eof : Bool} {brace : Option Char} {tl r : Str} (h : Closes eof brace tl)
    (hr : LastGap eof r ∨ StartsSeparated r) : ExprEnd brace (r ++ tl) := by
  have sep : StartsSeparated r → ExprEnd brace (r ++ tl) := by
    rintro ⟨c, t, rfl, hc⟩
    exact .inr ⟨c, _, rfl, by tauto⟩
  rcases hr with hr | hr
  · rcases h with ⟨rfl, rfl, rfl⟩ | ⟨c, t, rfl, rfl, rfl, hc⟩
    · simp only [LastGap, if_true] at hr
      cases hr with
      | gap hg =>
        rcases gap_head hg with rfl | hg
        · exact .inl rfl
        · exact sep hg
      | @comment g t hg ht =>
        rcases gap_head hg with rfl | ⟨d, u, rfl, hd⟩
        · exact sep ⟨'#', t, rfl, .inr rfl⟩
        · exact sep ⟨d, _, rfl, hd⟩
    · simp only [LastGap, Bool.false_eq_true, if_false] at hr
      rcases gap_head hr with rfl | hg
      · exact .inr ⟨c, t, rfl, by tauto⟩
      · exact sep hg
  · exact sep hr

theorem SpFields.exprEnd {eof : Bool} {brace : Option Char} {tl r : Str} {fds : List Field}
    (hc : Closes eof brace tl) (h : SpFields eof fds r) (hs : fds = [] ∨ StartsSeparated r) :
    ExprEnd brace (r ++ tl) := by
  apply hc.exprEnd
  rcases hs with rfl | hs
  · cases h with | nil h => exact .inl h
  · exact .inr hs

theorem SpItems.exprEnd {eof : Bool} {brace : Option Char} {tl r : Str} {fds : List Expr}
    (hc : Closes eof brace tl) (h : SpItems eof fds r) (hs : fds = [] ∨ StartsSeparated r) :
    ExprEnd brace (r ++ tl) := by
  apply hc.exprEnd
  rcases hs with rfl | hs
  · cases h with | nil h => exact .inl h
  · exact .inr hs

/-! ## Fields -/

/-- Storing the value of a definition. -/
def evalStore (file : Option Str) (tg : Target) (v : Value) (pairs : List Pair) (parent : Option Obj) :
    EM (List Pair × Option Obj) :=
  match tg with
  | .field f => pure (pairs ++ [.mk f v], parent)
  | .global g => do setGlobal g v; pure (pairs, parent)
  | .parent => match v with
    | .obj o => pure (pairs, some o)
    | v => .fail file (.api (.typeMismatch .obj v.getType))

theorem evalFields_cons (fs : FS) (file : Option Str) (stack : List Str) (load : Loader) (tg : Target)
    (e : Expr) (fds : List Field) (d : Nat) (pairs : List Pair) (parent : Option Obj) :
    evalFields fs file stack load (.mk tg e :: fds) d pairs parent =
      ((do
        checkNew file pairs parent tg
        let v ← evalExpr fs file stack load e pairs d
        evalStore file tg v pairs parent) >>= fun x =>
        evalFields fs file stack load fds d x.1 x.2) := by
  rw [evalFields]
  rw [EM.bind_assoc]
  congr 1
  funext _
  rw [EM.bind_assoc]
  congr 1
  funext v
  cases tg with
  | field f => rfl
  | global g => rfl
  | parent =>
    simp only [evalStore]
    cases v <;> rfl

theorem checkDuplicate_sim {s : PState} (ha : At env s) (tg : Target) (pairs : List Pair)
    (parent : Option Obj) (l c : Nat) :
    sim (checkDuplicate tg.split.1 tg.split.2 pairs parent l c) (checkNew env.file pairs parent tg) s
      (fun _ _ s' => s' = s) := by
  cases tg with
  | field f =>
    show sim (checkDuplicate f .regular pairs parent l c) _ _ _
    unfold checkNew checkDuplicate sim wp
    simp only
    have : (pairs.any (fun p => p.field == f)) = true ↔ f ∈ pairs.map Pair.field := by
      simp only [List.any_eq_true, beq_iff_eq, List.mem_map]
    by_cases h : f ∈ pairs.map Pair.field
    · rw [if_pos (this.2 h), if_pos h]
      refine ⟨_, rfl, ?_⟩
      rw [ha.file]; exact .sem .duplicateField
    · rw [if_neg (fun h' => h (this.1 h')), if_neg h]
      exact ⟨(), rfl, rfl⟩
  | global g =>
    show sim (checkDuplicate g .global pairs parent l c) _ _ _
    unfold checkNew checkDuplicate sim wp
    simp only [PState.est]
    cases hg : StrMap.get s.globals g with
    | none => exact ⟨(), rfl, rfl⟩
    | some v =>
      refine ⟨_, rfl, ?_⟩
      rw [ha.file]; exact .sem .duplicateGlobal
  | parent =>
    show sim (checkDuplicate ['^'] .parent pairs parent l c) _ _ _
    unfold checkNew checkDuplicate sim wp
    simp only
    by_cases h : parent.isSome = true
    · rw [if_pos h, if_pos h]
      refine ⟨_, rfl, ?_⟩
      rw [ha.file]; exact .sem .duplicateField
    · rw [if_neg h, if_neg h]
      exact ⟨(), rfl, rfl⟩

theorem storeField_sim {s : PState} (ha : At env s) (tg : Target) (v : Value) (pairs : List Pair)
    (parent : Option Obj) (l c : Nat) :
    sim (storeField tg.split.1 tg.split.2 v pairs parent l c) (evalStore env.file tg v pairs parent) s
      (fun x y _ => x = y) := by
  cases tg with
  | field f => exact sim_pure rfl
  | global g => exact ⟨(pairs, parent), rfl, rfl⟩
  | parent =>
    unfold evalStore storeField
    simp only [Target.split]
    cases v with
    | obj o => exact sim_pure rfl
    | _ => exact sim_fail ha.file .api

/-- The text in front of the parser after one definition. -/
def MoreFields (eof : Bool) (tl : Str) (fds : List Field) (more : Bool) (r : Str) : Prop :=
  (more = false ∧ eof = true ∧ fds = [] ∧ r = []) ∨
  (more = true ∧ (eof = true → fds ≠ []) ∧ FoundAt r ∧ ∃ txt, r = txt ++ tl ∧ SpFields eof fds txt)

theorem parseFieldValuePair_sim (henv : EnvOk fs env) (hsrc : Src fs main env.file env.full)
    (hpv : PvSim fs main n pv) {pairs : List Pair} {parent : Option Obj} (hps : GoodPairs pairs)
    (hpar : GoodParent parent) (depth : Nat) {brace : Option Char} {eof : Bool} {tl : Str}
    (hb : Closes eof brace tl) (hb' : brace = none ∨ brace = some '}') {K : Nat}
    (hK : fs.filesExcl env.stack ≤ K) {s : PState} (ha : At env s)
    {tg : Target} {nm g tx r : Str} {e : Expr} {fds : List Field}
    (htg : SpTarget tg nm) (hg : Gap g) (he : SpExpr e tx) (hfd : SpFields eof fds r)
    (hsep : fds = [] ∨ StartsSeparated r)
    (hr : s.stream.rest = nm ++ ':' :: (g ++ (tx ++ (r ++ tl))))
    (hm : s.stream.rest.length + fs.sizeExcl env.stack ≤ n) :
    sim (parseFieldValuePair pv pairs parent depth brace)
      (do
        checkNew env.file pairs parent tg
        let v ← evalExpr fs env.file env.stack (loadN fs K) e pairs depth
        evalStore env.file tg v pairs parent) s
      (fun x y s' => x.2 = y ∧ At env s' ∧ GoodPairs x.2.1 ∧ GoodParent x.2.2 ∧
        MoreFields eof tl fds x.1 s'.stream.rest ∧
        s'.stream.rest.length + 1 ≤ s.stream.rest.length) := by
  unfold parseFieldValuePair
  refine sim_peekP ?_
  obtain ⟨c0, nm0, hnm, hc0⟩ := htg.head
  have hhd : s.stream.rest.head? = some c0 := by rw [hr, hnm]; rfl
  simp only [hhd]
  have h1 : ¬ (c0 = '}' ∧ brace.isSome = true) := by
    rintro ⟨rfl, -⟩; exact absurd hc0.2.2 (by decide)
  rw [if_neg h1, if_neg (by rw [hc0.2.2]; simp)]
  refine sim_getPos (sim_liftLex (by rw [hr]; exact lexField_ok htg _ _ _ _) ?_)
  simp only
  have hh := ha.here
  rw [show s.stream.rest = (nm ++ [':']) ++ (g ++ (tx ++ (r ++ tl))) by rw [hr]; simp] at hh
  have ha1 := ha.move hh.advs
  have hw : WordAt env.full tg.split.1 s.stream.pos.line s.stream.pos.col := by
    rw [htg.split_name]
    rw [List.append_assoc] at hh
    exact hh.wordAt
  refine sim_bind (sim_wp (checkDuplicate_sim ha1 tg pairs parent _ _)
    (checkDuplicate_spec hsrc ha1 hw Target.split_parent)) ?_
  rintro _ _ s1 ⟨rfl, -, hnew⟩
  obtain ⟨c1, tx0, htx, hc1⟩ := he.head
  refine findCharP_gap ha1 hg (c := c1) (r := tx0 ++ (r ++ tl)) (by rw [htx]; rfl) hc1.1 hc1.2.1 ?_
  intro s2 ha2 hr2
  simp only [Bool.not_true, Bool.false_eq_true, if_false]
  have hr2' : s2.stream.rest = tx ++ (r ++ tl) := by rw [hr2, htx]; rfl
  have hend := hfd.exprEnd hb hsep
  have hl : s2.stream.rest.length ≤ s.stream.rest.length := by
    rw [hr2', hr]; simp only [List.length_append, List.length_cons]; omega
  refine sim_getPos (sim_bind ((hpv env s2 pairs depth brace K tx (r ++ tl) henv hsrc ha2 hps (by omega) hK
    hr2').2 e he hend) ?_)
  rintro v _ s3 ⟨rfl, ha3, hgv, hr3⟩
  refine sim_last (sim_wp (storeField_sim ha3 tg v pairs parent _ _) (storeField_spec hsrc ha3
    (ha2.operandAtExpr hr2' he) hgv hps hpar ?_)) ?_
  · intro hreg
    refine ⟨?_, hnew hreg⟩
    cases htg with
    | field h => exact h
    | global _ _ => cases hreg
    | parent => cases hreg
  rintro ⟨ps', par'⟩ _ s4 ⟨rfl, ha4, hs4, hps', hpar'⟩
  simp only at hps' hpar' ⊢
  have hr4 : s4.stream.rest = r ++ tl := by rw [hs4, hr3]
  have hl4 : (r ++ tl).length + 1 ≤ s.stream.rest.length := by
    rw [hr]; simp only [List.length_append, List.length_cons]; omega
  rcases hfd.strip with ⟨rfl, hlast⟩ | ⟨hne, g', r', rfl, hg', hfd', c2, t2, rfl, hc2⟩
  · rcases hb with ⟨rfl, rfl, rfl⟩ | ⟨c, t, rfl, rfl, rfl, hc⟩
    · simp only [LastGap, if_true, List.append_nil] at hlast hr4
      refine findCharP_end ha4 (by rw [hr4]; exact hlast) ?_
      intro s5 ha5 hr5
      simp only [Bool.not_false, if_true]
      exact sim_pure ⟨rfl, ha5, hps', hpar', .inl ⟨rfl, rfl, rfl, hr5⟩, by
        rw [hr5]; simp only [List.length_nil]; omega⟩
    · simp only [LastGap, Bool.false_eq_true, if_false] at hlast
      have hc' : isUniWhitespace c = false ∧ c ≠ '#' := by
        rw [endDelim_iff] at hc
        rcases hc with rfl | rfl | rfl | rfl <;> decide
      refine findCharP_gap ha4 hlast hr4 hc'.1 hc'.2 ?_
      intro s5 ha5 hr5
      simp only [Bool.not_true, Bool.false_eq_true, if_false]
      refine sim_pure ⟨rfl, ha5, hps', hpar', .inr ⟨rfl, by simp, ?_, [], hr5, .nil (eof := false) .nil⟩, ?_⟩
      · rw [hr5]; exact ⟨c, t, rfl, hc'.1, hc'.2⟩
      · rw [hr5]; simp only [List.length_append, List.length_cons] at hl4 ⊢; omega
  · refine findCharP_gap ha4 hg' (c := c2) (r := t2 ++ tl) (by rw [hr4]; simp) hc2.1 hc2.2.1 ?_
    intro s5 ha5 hr5
    simp only [Bool.not_true, Bool.false_eq_true, if_false]
    refine sim_pure ⟨rfl, ha5, hps', hpar', .inr ⟨rfl, fun _ => hne, ?_, c2 :: t2, hr5, hfd'⟩, ?_⟩
    · rw [hr5]; exact hc2.found
    · rw [hr5]; simp only [List.length_append, List.length_cons] at hl4 ⊢; omega

theorem fieldsLoop_sim (henv : EnvOk fs env) (hsrc : Src fs main env.file env.full)
    (hpv : PvSim fs main n pv) (depth : Nat) {brace : Option Char} {eof : Bool} {tl rest' : Str}
    (hb : (eof = true ∧ brace = none ∧ tl = [] ∧ rest' = []) ∨
      (eof = false ∧ brace = some '}' ∧ tl = '}' :: rest')) {K : Nat}
    (hK : fs.filesExcl env.stack ≤ K) (k : Nat) : ∀ (fds : List Field) (txt : Str) (pairs : List Pair)
    (parent : Option Obj) (s : PState), GoodPairs pairs → GoodParent parent → At env s →
    FoundAt s.stream.rest → SpFields eof fds txt → (eof = true → fds ≠ []) → s.stream.rest = txt ++ tl →
    s.stream.rest.length + fs.sizeExcl env.stack ≤ n → s.stream.rest.length + 1 ≤ k →
    sim (fieldsLoop pv depth brace k pairs parent)
      (evalFields fs env.file env.stack (loadN fs K) fds depth pairs parent) s
      (fun x y s' => x = y ∧ s'.stream.rest = rest') := by
  have hcl : Closes eof brace tl := by
    rcases hb with ⟨h1, h2, h3, -⟩ | ⟨h1, h2, h3⟩
    · exact .inl ⟨h1, h2, h3⟩
    · exact .inr ⟨_, _, h1, h2, h3, by decide⟩
  induction k with
  | zero => intro _ _ _ _ s _ _ _ _ _ _ _ _ h; omega
  | succ k ih =>
    intro fds txt pairs parent s hps hpar ha hf hsp hne hr hm hk
    unfold fieldsLoop
    cases hsp with
    | nil hg =>
      rcases hb with ⟨rfl, -⟩ | ⟨rfl, rfl, rfl⟩
      · exact absurd rfl (hne rfl)
      simp only [LastGap, Bool.false_eq_true, if_false] at hg
      rw [hr] at hf
      obtain rfl := gap_found hg hf
      unfold parseFieldValuePair evalFields
      refine sim_last (m := _) (ev := pure (pairs, parent)) (Q := fun x y s' => x = (false, y) ∧
        s'.stream.rest = rest') (sim_peekP ?_) ?_
      · rw [hr]
        simp only [List.nil_append, List.head?_cons, Option.isSome_some, and_self, if_true]
        exact sim_nextP hr (sim_pure ⟨rfl, rfl⟩)
      · rintro _ y s' ⟨rfl, h⟩
        exact sim_pure ⟨rfl, h⟩
    | @cons _ g nm g' tx r tg e fds hg htg hg' he hfd hsep =>
      have hg0 : g = [] := by
        rw [hr, List.append_assoc] at hf
        exact gap_found hg hf
      subst hg0
      rw [evalFields_cons]
      refine sim_bind (parseFieldValuePair_sim henv hsrc hpv hps hpar depth hcl
        (by rcases hb with ⟨-, h, -⟩ | ⟨-, h, -⟩ <;> simp [h]) hK ha htg hg' he hfd hsep
        (by rw [hr]; simp) hm) ?_
      rintro ⟨more, ps', par'⟩ _ s' ⟨rfl, ha', hps', hpar', hmore, hl⟩
      simp only at hps' hpar' hmore hl ⊢
      rcases hmore with ⟨rfl, h1, rfl, h2⟩ | ⟨rfl, h1, h2, txt', h3, h4⟩
      · simp only [Bool.false_eq_true, if_false]
        unfold evalFields
        refine sim_pure ⟨rfl, ?_⟩
        rcases hb with ⟨-, -, -, h⟩ | ⟨h, -⟩
        · rw [h2, h]
        · rw [h1] at h; cases h
      · simp only [if_true]
        exact ih fds txt' ps' par' s' hps' hpar' ha' h2 h4 h1 h3 (by omega) (by omega)

theorem parseObjStream_sim (henv : EnvOk fs env) (hsrc : Src fs main env.file env.full)
    (hpv : PvSim fs main n pv) {K : Nat} (hK : fs.filesExcl env.stack ≤ K) {s : PState} (ha : At env s)
    {d : List Field} (hd : SpDoc d s.stream.rest)
    (hm : s.stream.rest.length + fs.sizeExcl env.stack ≤ n) :
    sim (parseObjStream pv) (evalDoc fs env.file env.stack (loadN fs K) d) s
      (fun x y s' => x = y ∧ s'.stream.rest = []) := by
  unfold parseObjStream evalDoc
  rcases hd.strip with ⟨rfl, hg⟩ | ⟨hne, g, r, hr, hg, hd', c, t, rfl, hc⟩
  · simp only [LastGap, if_true] at hg
    refine findCharP_end ha hg ?_
    intro s1 ha1 hr1
    simp only [Bool.not_false, if_true]
    unfold evalFields
    rw [EM.pure_bind]
    refine sim_bind (sim_genId (Q := fun i j s' => i = j ∧ s'.stream = s1.stream) ⟨rfl, rfl⟩) ?_
    rintro i _ s2 ⟨rfl, h⟩
    exact sim_pure ⟨rfl, by rw [h, hr1]⟩
  · refine findCharP_gap ha hg hr hc.1 hc.2.1 ?_
    intro s1 ha1 hr1
    simp only [Bool.not_true, Bool.false_eq_true, if_false]
    refine sim_bind (sim_withBound (fieldsLoop_sim henv hsrc hpv 1 (.inl ⟨rfl, rfl, rfl, rfl⟩) hK _ d
      (c :: t) [] none s1 goodPairs_nil goodParent_none ha1 (by rw [hr1]; exact hc.found) hd'
      (fun _ => hne) (by rw [hr1]; simp) (by
        rw [hr] at hm; rw [hr1]; simp only [List.length_append] at hm ⊢; omega) (Nat.le_refl _))) ?_
    rintro ⟨ps, par⟩ _ s2 ⟨rfl, hr2⟩
    refine sim_bind (sim_genId (Q := fun i j s' => i = j ∧ s'.stream = s2.stream) ⟨rfl, rfl⟩) ?_
    rintro i _ s3 ⟨rfl, h⟩
    exact sim_pure ⟨rfl, by rw [h, hr2]⟩

theorem parseObj_sim (henv : EnvOk fs env) (hsrc : Src fs main env.file env.full)
    (hpv : PvSim fs main n pv) (pairs : List Pair) (depth : Nat) {K : Nat}
    (hK : fs.filesExcl env.stack ≤ K)
    {s : PState} (ha : At env s) {rest' : Str} {fds : List Field} {txt : Str} (hsp : SpFields false fds txt)
    (hr : s.stream.rest = '{' :: (txt ++ '}' :: rest'))
    (hm : s.stream.rest.length + fs.sizeExcl env.stack ≤ n + 1) :
    sim (parseObj pv (depth + 1)) (evalTerm fs env.file env.stack (loadN fs K) (.obj fds) pairs depth) s
      (fun x y s' => x = y ∧ s'.stream.rest = rest') := by
  unfold parseObj evalTerm
  refine sim_bind (checkDepth_sim ha _) ?_
  rintro _ _ s0 hs0
  obtain rfl := hs0.symm
  refine sim_expectP hr ?_
  have hh := ha.here
  rw [hr] at hh
  have ha1 := ha.move hh.adv
  have hlen : (txt ++ '}' :: rest').length + 1 = s.stream.rest.length := by rw [hr]; rfl
  have key : ∃ g r, txt = g ++ r ∧ Gap g ∧ SpFields false fds r ∧ FoundAt (r ++ '}' :: rest') := by
    rcases hsp.strip with ⟨rfl, hg⟩ | ⟨hne, g, r, rfl, hg, hd', c, t, rfl, hc⟩
    · simp only [LastGap, Bool.false_eq_true, if_false] at hg
      exact ⟨txt, [], by simp, hg, .nil (eof := false) .nil, '}', rest', rfl, by decide, by decide⟩
    · exact ⟨g, c :: t, rfl, hg, hd', hc.found⟩
  obtain ⟨g, r, rfl, hg, hd', hfound⟩ := key
  obtain ⟨c, t, h1, h2, h3⟩ := id hfound
  refine findCharP_gap ha1 hg (c := c) (r := t) (by rw [← h1]; simp) h2 h3 ?_
  intro s1 ha2 hr1
  simp only [Bool.not_true, Bool.false_eq_true, if_false]
  rw [← h1] at hr1
  refine sim_bind (sim_withBound (fieldsLoop_sim henv hsrc hpv (depth + 1) (.inr ⟨rfl, rfl, rfl⟩) hK _ fds
      r [] none s1 goodPairs_nil goodParent_none ha2 (by rw [hr1]; exact hfound) hd'
      (by simp) hr1 (by
        rw [hr1]; simp only [List.length_append] at hlen hm ⊢; omega) (Nat.le_refl _))) ?_
  rintro ⟨ps, par⟩ _ s2 ⟨rfl, hr2⟩
  refine sim_bind (sim_genId (Q := fun i j s' => i = j ∧ s'.stream = s2.stream) ⟨rfl, rfl⟩) ?_
  rintro i _ s3 ⟨rfl, h⟩
  exact sim_pure ⟨rfl, by rw [h, hr2]⟩

/-! ## Sequences -/

theorem evalElems_cons (fs : FS) (file : Option Str) (stack : List Str) (load : Loader) (e : Expr)
    (es : List Expr) (pairs : List Pair) (d : Nat) (t : Ty) :
    evalElems fs file stack load (e :: es) pairs d t =
      (do
        let v ← evalExpr fs file stack load e pairs d
        match Ty.mostSpecific t v.getType with
        | none => .fail file (.expectedType t v.getType)
        | some (u, _) => do
          let (vs, u) ← evalElems fs file stack load es pairs d u
          pure (v :: vs, u)) := by rw [evalElems]; rfl

/-- The type check of an element, in the evaluator. -/
def evalArrStep (file : Option Str) (t : Ty) (v : Value) : EM Ty :=
  match Ty.mostSpecific t v.getType with
  | none => .fail file (.expectedType t v.getType)
  | some (u, _) => pure u

theorem evalElems_cons' (fs : FS) (file : Option Str) (stack : List Str) (load : Loader) (e : Expr)
    (es : List Expr) (pairs : List Pair) (d : Nat) (t : Ty) :
    evalElems fs file stack load (e :: es) pairs d t =
      (do
        let v ← evalExpr fs file stack load e pairs d
        let u ← evalArrStep file t v
        let (vs, u) ← evalElems fs file stack load es pairs d u
        pure (v :: vs, u)) := by
  rw [evalElems_cons]
  congr 1
  funext v
  unfold evalArrStep
  cases Ty.mostSpecific t v.getType with
  | none => rfl
  | some x => rfl

theorem arrStep_sim {s : PState} (ha : At env s) {t : Ty} {f : Bool} (hf : f = t.hasAny) (v : Value)
    (l c : Nat) :
    sim (arrStep t f v l c) (evalArrStep env.file t v) s (fun x y s' => x.1 = y ∧ x.2 = y.hasAny ∧ s' = s) := by
  unfold arrStep evalArrStep
  rw [arrTypeStep_eq t f _ hf]
  have hs := Ty.mostSpecific_spec t v.getType
  cases hm : Ty.mostSpecific t v.getType with
  | none => exact sim_fail ha.file .expectedType
  | some x =>
    rw [hm] at hs
    obtain ⟨u, g⟩ := x
    exact sim_pure ⟨rfl, hs.2.2.2, rfl⟩

theorem arrLoop_sim (henv : EnvOk fs env) (hsrc : Src fs main env.file env.full)
    (hpv : PvSim fs main n pv) {pairs : List Pair} (hps : GoodPairs pairs) (depth : Nat) {K : Nat}
    (hK : fs.filesExcl env.stack ≤ K) {rest' : Str} (k : Nat) :
    ∀ (es : List Expr) (txt : Str) (vec : List Value) (t : Ty) (f : Bool) (s : PState), f = t.hasAny →
    At env s → SpItems false es txt → s.stream.rest = txt ++ ']' :: rest' →
    s.stream.rest.length + fs.sizeExcl env.stack ≤ n → s.stream.rest.length + 1 ≤ k →
    sim (arrLoop pv pairs depth k vec t f)
      (evalElems fs env.file env.stack (loadN fs K) es pairs depth t) s
      (fun x y s' => x = (vec ++ y.1, y.2) ∧ s'.stream.rest = rest') := by
  induction k with
  | zero => intro _ _ _ _ _ s _ _ _ _ _ h; omega
  | succ k ih =>
    intro es txt vec t f s hf ha hsp hr hm hk
    unfold arrLoop
    rcases hsp.strip with ⟨rfl, hg⟩ | ⟨e, es', g, tx, r', rfl, rfl, hg, he, hsp', hsep⟩
    · simp only [LastGap, Bool.false_eq_true, if_false] at hg
      refine findCharP_gap ha hg hr (by decide) (by decide) ?_
      intro s1 ha1 hr1
      simp only [Bool.not_true, Bool.false_eq_true, if_false]
      refine sim_peekP ?_
      simp only [hr1, List.head?_cons, if_true]
      unfold evalElems
      exact sim_nextP hr1 (sim_pure ⟨by simp, rfl⟩)
    · obtain ⟨c, tx0, htx, hc⟩ := he.head
      refine findCharP_gap ha hg (c := c) (r := tx0 ++ (r' ++ ']' :: rest')) (by rw [hr, htx]; simp)
        hc.1 hc.2.1 ?_
      intro s1 ha1 hr1
      simp only [Bool.not_true, Bool.false_eq_true, if_false]
      refine sim_peekP ?_
      have hcn : c ≠ ']' := by rintro rfl; exact absurd hc.2.2 (by decide)
      simp only [hr1, List.head?_cons, if_neg hcn, hc.2.2, Bool.false_eq_true, if_false]
      refine sim_getPos ?_
      rw [evalElems_cons']
      have hr1' : s1.stream.rest = tx ++ (r' ++ ']' :: rest') := by rw [hr1, htx]; rfl
      have hl : s1.stream.rest.length ≤ s.stream.rest.length := by
        rw [hr1', hr]; simp only [List.length_append, List.length_cons]; omega
      refine sim_bind ((hpv env s1 pairs depth (some ']') K tx _ henv hsrc ha1 hps (by omega) hK hr1').2 e he
        (hsp'.exprEnd (.inr ⟨_, _, rfl, rfl, rfl, by decide⟩) hsep)) ?_
      rintro v _ s2 ⟨rfl, ha2, -, hr2⟩
      refine sim_bind (arrStep_sim ha2 hf v _ _) ?_
      rintro ⟨u, fu⟩ _ s3 ⟨rfl, hfu, hs3⟩
      obtain rfl := hs3.symm
      have hl2 : s2.stream.rest.length + 1 ≤ s.stream.rest.length := by
        have := List.length_pos_iff.2 he.ne_nil
        rw [hr2, hr]; simp only [List.length_append, List.length_cons]; omega
      refine sim_right (ih es' r' (vec ++ [v]) u fu s2 hfu ha2 hsp' hr2 (by omega) (by omega)) ?_
      rintro x ⟨y1, y2⟩ s4 ⟨rfl, hr4⟩
      exact ⟨by simp, hr4⟩

theorem parseArr_sim (henv : EnvOk fs env) (hsrc : Src fs main env.file env.full)
    (hpv : PvSim fs main n pv) {pairs : List Pair} (hps : GoodPairs pairs) (depth : Nat) {K : Nat}
    (hK : fs.filesExcl env.stack ≤ K)
    {s : PState} (ha : At env s) {rest' : Str} {es : List Expr} {txt : Str} (hsp : SpItems false es txt)
    (hr : s.stream.rest = '[' :: (txt ++ ']' :: rest'))
    (hm : s.stream.rest.length + fs.sizeExcl env.stack ≤ n + 1) :
    sim (parseArr pv pairs (depth + 1)) (evalTerm fs env.file env.stack (loadN fs K) (.arr es) pairs depth) s
      (fun x y s' => x = y ∧ s'.stream.rest = rest') := by
  unfold parseArr evalTerm
  refine sim_bind (checkDepth_sim ha _) ?_
  rintro _ _ s0 hs0
  obtain rfl := hs0.symm
  refine sim_expectP hr ?_
  have hh := ha.here
  rw [hr] at hh
  have ha1 := ha.move hh.adv
  have hlen : (txt ++ ']' :: rest').length + 1 = s.stream.rest.length := by rw [hr]; rfl
  refine sim_bind (sim_withBound (arrLoop_sim henv hsrc hpv hps (depth + 1) hK _ es txt [] .any true _ rfl
    ha1 hsp rfl (by show (txt ++ ']' :: rest').length + _ ≤ n; omega) (Nat.le_refl _))) ?_
  rintro x ⟨vs, t⟩ s2 ⟨rfl, hr2⟩
  refine sim_bind (sim_genId (Q := fun i j s' => i = j ∧ s'.stream = s2.stream) ⟨rfl, rfl⟩) ?_
  rintro i _ s3 ⟨rfl, h⟩
  exact sim_pure ⟨rfl, by rw [h, hr2]⟩

theorem tupLoop_sim (henv : EnvOk fs env) (hsrc : Src fs main env.file env.full)
    (hpv : PvSim fs main n pv) {pairs : List Pair} (hps : GoodPairs pairs) (depth : Nat) {K : Nat}
    (hK : fs.filesExcl env.stack ≤ K) {rest' : Str} (k : Nat) :
    ∀ (es : List Expr) (txt : Str) (vec : List Value) (s : PState),
    At env s → SpItems false es txt → s.stream.rest = txt ++ ')' :: rest' →
    s.stream.rest.length + fs.sizeExcl env.stack ≤ n → s.stream.rest.length + 1 ≤ k →
    sim (tupLoop pv pairs depth k vec)
      (evalItems fs env.file env.stack (loadN fs K) es pairs depth) s
      (fun x y s' => x = vec ++ y ∧ s'.stream.rest = rest') := by
  induction k with
  | zero => intro _ _ _ s _ _ _ _ h; omega
  | succ k ih =>
    intro es txt vec s ha hsp hr hm hk
    unfold tupLoop
    rcases hsp.strip with ⟨rfl, hg⟩ | ⟨e, es', g, tx, r', rfl, rfl, hg, he, hsp', hsep⟩
    · simp only [LastGap, Bool.false_eq_true, if_false] at hg
      refine findCharP_gap ha hg hr (by decide) (by decide) ?_
      intro s1 ha1 hr1
      simp only [Bool.not_true, Bool.false_eq_true, if_false]
      refine sim_peekP ?_
      simp only [hr1, List.head?_cons, if_true]
      unfold evalItems
      exact sim_nextP hr1 (sim_pure ⟨by simp, rfl⟩)
    · obtain ⟨c, tx0, htx, hc⟩ := he.head
      refine findCharP_gap ha hg (c := c) (r := tx0 ++ (r' ++ ')' :: rest')) (by rw [hr, htx]; simp)
        hc.1 hc.2.1 ?_
      intro s1 ha1 hr1
      simp only [Bool.not_true, Bool.false_eq_true, if_false]
      refine sim_peekP ?_
      have hcn : c ≠ ')' := by rintro rfl; exact absurd hc.2.2 (by decide)
      simp only [hr1, List.head?_cons, if_neg hcn, hc.2.2, Bool.false_eq_true, if_false]
      refine sim_getPos ?_
      rw [evalItems]
      have hr1' : s1.stream.rest = tx ++ (r' ++ ')' :: rest') := by rw [hr1, htx]; rfl
      have hl : s1.stream.rest.length ≤ s.stream.rest.length := by
        rw [hr1', hr]; simp only [List.length_append, List.length_cons]; omega
      refine sim_bind ((hpv env s1 pairs depth (some ')') K tx _ henv hsrc ha1 hps (by omega) hK hr1').2 e he
        (hsp'.exprEnd (.inr ⟨_, _, rfl, rfl, rfl, by decide⟩) hsep)) ?_
      rintro v _ s2 ⟨rfl, ha2, -, hr2⟩
      have hl2 : s2.stream.rest.length + 1 ≤ s.stream.rest.length := by
        have := List.length_pos_iff.2 he.ne_nil
        rw [hr2, hr]; simp only [List.length_append, List.length_cons]; omega
      refine sim_right (ih es' r' (vec ++ [v]) s2 ha2 hsp' hr2 (by omega) (by omega)) ?_
      rintro x y s4 ⟨rfl, hr4⟩
      exact ⟨by simp, hr4⟩

theorem parseTup_sim (henv : EnvOk fs env) (hsrc : Src fs main env.file env.full)
    (hpv : PvSim fs main n pv) {pairs : List Pair} (hps : GoodPairs pairs) (depth : Nat) {K : Nat}
    (hK : fs.filesExcl env.stack ≤ K)
    {s : PState} (ha : At env s) {rest' : Str} {es : List Expr} {txt : Str} (hsp : SpItems false es txt)
    (hr : s.stream.rest = '(' :: (txt ++ ')' :: rest'))
    (hm : s.stream.rest.length + fs.sizeExcl env.stack ≤ n + 1) :
    sim (parseTup pv pairs (depth + 1)) (evalTerm fs env.file env.stack (loadN fs K) (.tup es) pairs depth) s
      (fun x y s' => x = y ∧ s'.stream.rest = rest') := by
  unfold parseTup evalTerm
  refine sim_bind (checkDepth_sim ha _) ?_
  rintro _ _ s0 hs0
  obtain rfl := hs0.symm
  refine sim_expectP hr ?_
  have hh := ha.here
  rw [hr] at hh
  have ha1 := ha.move hh.adv
  have hlen : (txt ++ ')' :: rest').length + 1 = s.stream.rest.length := by rw [hr]; rfl
  refine sim_bind (sim_withBound (tupLoop_sim henv hsrc hpv hps (depth + 1) hK _ es txt [] _
    ha1 hsp rfl (by show (txt ++ ')' :: rest').length + _ ≤ n; omega) (Nat.le_refl _))) ?_
  rintro x vs s2 ⟨rfl, hr2⟩
  refine sim_bind (sim_genId (Q := fun i j s' => i = j ∧ s'.stream = s2.stream) ⟨rfl, rfl⟩) ?_
  rintro i _ s3 ⟨rfl, h⟩
  exact sim_pure ⟨rfl, by rw [h, hr2]⟩

/-! ## Files included as Arr or Tup -/

theorem arrFileLoop_sim (henv : EnvOk fs env) (hsrc : Src fs main env.file env.full)
    (hpv : PvSim fs main n pv) {K : Nat} (hK : fs.filesExcl env.stack ≤ K) (k : Nat) :
    ∀ (es : List Expr) (vec : List Value) (t : Ty) (f : Bool) (s : PState), f = t.hasAny →
    At env s → SpItems true es s.stream.rest →
    s.stream.rest.length + fs.sizeExcl env.stack ≤ n → s.stream.rest.length + 1 ≤ k →
    sim (arrFileLoop pv k vec t f)
      (evalElems fs env.file env.stack (loadN fs K) es [] 1 t) s
      (fun x y _ => x = (vec ++ y.1, y.2)) := by
  induction k with
  | zero => intro _ _ _ _ s _ _ _ _ h; omega
  | succ k ih =>
    intro es vec t f s hf ha hsp hm hk
    unfold arrFileLoop
    rcases hsp.strip with ⟨rfl, hg⟩ | ⟨e, es', g, tx, r', rfl, hr, hg, he, hsp', hsep⟩
    · simp only [LastGap, if_true] at hg
      refine findCharP_end ha hg ?_
      intro s1 ha1 hr1
      simp only [Bool.not_false, if_true]
      unfold evalElems
      exact sim_pure (by simp)
    · obtain ⟨c, tx0, htx, hc⟩ := he.head
      refine findCharP_gap ha hg (c := c) (r := tx0 ++ r') (by rw [hr, htx]; simp) hc.1 hc.2.1 ?_
      intro s1 ha1 hr1
      simp only [Bool.not_true, Bool.false_eq_true, if_false]
      refine sim_getPos ?_
      rw [evalElems_cons']
      have hr1' : s1.stream.rest = tx ++ r' := by rw [hr1, htx]; rfl
      have hl : s1.stream.rest.length ≤ s.stream.rest.length := by
        rw [hr1', hr]; simp only [List.length_append]; omega
      refine sim_bind ((hpv env s1 [] 1 none K tx _ henv hsrc ha1 goodPairs_nil (by omega) hK hr1').2 e he
        (by simpa using hsp'.exprEnd (.inl ⟨rfl, rfl, rfl⟩) hsep)) ?_
      rintro v _ s2 ⟨rfl, ha2, -, hr2⟩
      refine sim_bind (arrStep_sim ha2 hf v _ _) ?_
      rintro ⟨u, fu⟩ _ s3 ⟨rfl, hfu, hs3⟩
      obtain rfl := hs3.symm
      have hl2 : s2.stream.rest.length + 1 ≤ s.stream.rest.length := by
        have := List.length_pos_iff.2 he.ne_nil
        rw [hr2, hr]; simp only [List.length_append]; omega
      refine sim_right (ih es' (vec ++ [v]) u fu s2 hfu ha2 (by rw [hr2]; exact hsp') (by omega) (by omega)) ?_
      rintro x ⟨y1, y2⟩ s4 rfl
      simp

theorem tupFileLoop_sim (henv : EnvOk fs env) (hsrc : Src fs main env.file env.full)
    (hpv : PvSim fs main n pv) {K : Nat} (hK : fs.filesExcl env.stack ≤ K) (k : Nat) :
    ∀ (es : List Expr) (vec : List Value) (s : PState),
    At env s → SpItems true es s.stream.rest →
    s.stream.rest.length + fs.sizeExcl env.stack ≤ n → s.stream.rest.length + 1 ≤ k →
    sim (tupFileLoop pv k vec)
      (evalItems fs env.file env.stack (loadN fs K) es [] 1) s
      (fun x y _ => x = vec ++ y) := by
  induction k with
  | zero => intro _ _ s _ _ _ h; omega
  | succ k ih =>
    intro es vec s ha hsp hm hk
    unfold tupFileLoop
    rcases hsp.strip with ⟨rfl, hg⟩ | ⟨e, es', g, tx, r', rfl, hr, hg, he, hsp', hsep⟩
    · simp only [LastGap, if_true] at hg
      refine findCharP_end ha hg ?_
      intro s1 ha1 hr1
      simp only [Bool.not_false, if_true]
      unfold evalItems
      exact sim_pure (by simp)
    · obtain ⟨c, tx0, htx, hc⟩ := he.head
      refine findCharP_gap ha hg (c := c) (r := tx0 ++ r') (by rw [hr, htx]; simp) hc.1 hc.2.1 ?_
      intro s1 ha1 hr1
      simp only [Bool.not_true, Bool.false_eq_true, if_false]
      refine sim_getPos ?_
      rw [evalItems]
      have hr1' : s1.stream.rest = tx ++ r' := by rw [hr1, htx]; rfl
      have hl : s1.stream.rest.length ≤ s.stream.rest.length := by
        rw [hr1', hr]; simp only [List.length_append]; omega
      refine sim_bind ((hpv env s1 [] 1 none K tx _ henv hsrc ha1 goodPairs_nil (by omega) hK hr1').2 e he
        (by simpa using hsp'.exprEnd (.inl ⟨rfl, rfl, rfl⟩) hsep)) ?_
      rintro v _ s2 ⟨rfl, ha2, -, hr2⟩
      have hl2 : s2.stream.rest.length + 1 ≤ s.stream.rest.length := by
        have := List.length_pos_iff.2 he.ne_nil
        rw [hr2, hr]; simp only [List.length_append]; omega
      refine sim_right (ih es' (vec ++ [v]) s2 ha2 (by rw [hr2]; exact hsp') (by omega) (by omega)) ?_
      rintro x y s4 rfl
      simp

end
end Over
