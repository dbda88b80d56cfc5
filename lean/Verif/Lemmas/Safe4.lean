import Verif.Lemmas.Paths
import Verif.Lemmas.Safe3

/-!
# Safety of includes and of the whole parser
-/

set_option linter.unusedSectionVars false

namespace Over

theorem FS.sizeExcl_cons (fs : FS) (full : Str) (stack : List Str) (hns : full ∉ stack) (text : Str)
    (h : StrMap.get fs.nodes full = some (.ok text)) :
    text.length + fs.sizeExcl (full :: stack) ≤ fs.sizeExcl stack := by
  simp only [FS.sizeExcl]
  have hm := StrMap.get_mem h
  clear h
  generalize fs.nodes = nodes at hm ⊢
  induction nodes with
  | nil => simp at hm
  | cons e l ih =>
    have hle : ∀ l : List (Str × Except Str Str),
        ((l.filter (fun e => !(full :: stack).contains e.1)).map nodeLen).sum ≤
        ((l.filter (fun e => !stack.contains e.1)).map nodeLen).sum := by
      intro l
      induction l with
      | nil => exact Nat.le_refl _
      | cons e l ih =>
        by_cases h1 : e.1 ∈ stack
        · simpa [h1] using ih
        · by_cases h2 : e.1 = full
          · have h3 : full ∉ stack := hns
            simp only [List.filter_cons, List.contains_cons, h2, beq_self_eq_true, Bool.true_or,
              Bool.not_true, Bool.false_eq_true, if_false]
            have : (!stack.contains full) = true := by simp [h3]
            rw [if_pos this]
            simp only [List.map_cons, List.sum_cons]
            simp only [List.contains_cons] at ih
            omega
          · have h3 : (!(full :: stack).contains e.1) = true := by simp [h1, h2]
            have h4 : (!stack.contains e.1) = true := by simp [h1]
            simp only [List.filter_cons, h3, h4, if_true, List.map_cons, List.sum_cons]
            omega
    by_cases h1 : e = (full, .ok text)
    · subst h1
      have h4 : (!stack.contains full) = true := by simp [hns]
      have h3 : (!(full :: stack).contains full) = false := by simp
      simp only [List.filter_cons, h3, h4, if_true, Bool.false_eq_true, if_false, List.map_cons,
        List.sum_cons]
      have := hle l
      simp only [nodeLen]
      omega
    · have hm' : (full, Except.ok text) ∈ l := by
        rcases List.mem_cons.1 hm with hm | hm
        · exact absurd hm.symm h1
        · exact hm
      have := ih hm'
      by_cases h5 : e.1 ∈ stack
      · simpa [h5] using this
      · have h4 : (!stack.contains e.1) = true := by simp [h5]
        by_cases h2 : e.1 = full
        · have h3 : (!(full :: stack).contains e.1) = false := by simp [h2]
          simp only [List.filter_cons, h3, h4, if_true, Bool.false_eq_true, if_false, List.map_cons,
            List.sum_cons]
          omega
        · have h3 : (!(full :: stack).contains e.1) = true := by simp [h2, h5]
          simp only [List.filter_cons, h3, h4, if_true, List.map_cons, List.sum_cons]
          omega

variable [Unicode]

section
variable [PanicOk]
variable {fs : FS} {main : Option Str × Str} {env : Env} {n : Nat} {pv : PV}

theorem includeKeyword_spec (hsrc : Src fs main env.file env.full) {s : PState} (ha : At env s)
    {v : Value} {l c : Nat} (hp : OperandAt env.full l c) :
    wp (includeKeyword v l c) s (fun _ s' => Same s s') (ErrOk fs main) := by
  unfold includeKeyword
  cases v with
  | obj o =>
    have step : ∀ (k r : IncKind) (s : PState) (m : P (Option IncKind)),
        (∀ s', Same s s' → wp m s' (fun _ s'' => Same s s'') (ErrOk fs main)) →
        wp (do let i ← forceSentinel k; if o.id = i then pure (some r) else m) s
          (fun _ s' => Same s s') (ErrOk fs main) := by
      intro k r s m h
      rw [wp_bind]
      refine wp_mono forceSentinel_spec ?_ (fun _ h => h)
      intro i s' hs
      rw [wp_ite]
      exact ⟨fun _ => hs, fun _ => h s' hs⟩
    have mono : ∀ {s s' : PState} {m : P (Option IncKind)}, Same s s' →
        wp m s' (fun _ s'' => Same s' s'') (ErrOk fs main) →
        wp m s' (fun _ s'' => Same s s'') (ErrOk fs main) := by
      intro s s' m h h2
      exact wp_mono h2 (fun _ _ h3 => h.trans h3) (fun _ h => h)
    refine step .obj .obj s _ fun s1 h1 => mono h1 ?_
    refine step .str .str s1 _ fun s2 h2 => mono h2 ?_
    refine step .arr .arr s2 _ fun s3 h3 => mono h3 ?_
    refine step .tup .tup s3 _ fun s4 h4 => ?_
    exact err_of_kind hsrc (h4.at (h3.at (h2.at (h1.at ha)))) (.invalidIncludeToken hp)
  | str _ => exact Same.refl s
  | _ => exact err_of_kind hsrc ha (.invalidIncludeToken hp)

theorem EnvOk.parent (henv : EnvOk fs env) : ∀ f, env.file = some f → (pathParent f).isSome = true := by
  intro f hf
  unfold EnvOk at henv
  rw [hf] at henv
  obtain ⟨c, h, -⟩ := henv
  exact parent_of_resolve h

theorem resolveInclude_spec (henv : EnvOk fs env) (hsrc : Src fs main env.file env.full) {s : PState} (ha : At env s)
    {p : Str} {l c : Nat} (hp : OperandAt env.full l c) :
    wp (resolveInclude fs p l c) s (fun x s' => s' = s ∧ fs.resolve x.1 = some x.2 ∧
      fs.utf8 x.2 = true ∧ fs.isFile x.1 = true) (ErrOk fs main) := by
  unfold resolveInclude
  rw [wp_bind, wp_getFile]
  rw [ha.file, includeTarget_eq henv.parent]
  simp only
  generalize meantIn env.file p = path
  by_cases h1 : fs.isFile path = true
  · simp only [h1, Bool.not_true, Bool.false_eq_true, if_false]
    cases h2 : fs.resolve path with
    | none => exact err_of_kind hsrc ha (.invalidIncludePath hp)
    | some full =>
      by_cases h3 : fs.utf8 full = true
      · simp only [h3, Bool.not_true, Bool.false_eq_true, if_false]
        exact ⟨rfl, h2, h3, h1⟩
      · simp only [h3]
        exact err_of_kind hsrc ha (.invalidIncludePath hp)
  · simp only [h1]
    exact err_of_kind hsrc ha (.invalidIncludePath hp)

/-- The environment while an include is processed: the current file is marked as being read. -/
def Env.marked (env : Env) : Env := ⟨env.file, env.full, env.cur, env.stack⟩

theorem storeCurrent_spec (henv : EnvOk fs env) {s : PState} (ha : At env s) {E : ParseError → Prop} :
    wp (storeCurrent fs) s (fun x s' => x = env.cur ∧ At env.marked s' ∧
      s' = { s with inc := { s.inc with opened := env.stack } }) E := by
  simp only [wp, storeCurrent, ha.file]
  unfold EnvOk at henv
  cases hf : env.file with
  | none =>
    rw [hf] at henv
    obtain ⟨h1, h2⟩ := henv
    have hs : env.stack = [] := by simp [Env.stack, h1, h2]
    have ho : s.inc.opened = [] := by rw [ha.opened, h2]
    refine ⟨h1.symm, ⟨ha.file, ha.here, ?_, ha.globals, ha.cache⟩, ?_⟩
    · simp [Env.marked, hs, ho]
    · rw [hs, ← ho]
  | some f =>
    rw [hf] at henv
    obtain ⟨c, h1, h2, h3, h4⟩ := henv
    simp only [h1]
    have hc : s.inc.opened.contains c = false := by rw [ha.opened]; simpa using h4
    rw [hc]
    simp only [Bool.false_eq_true, if_false]
    have hs : c :: s.inc.opened = env.stack := by rw [ha.opened]; simp [Env.stack, h3]
    by_cases hu : fs.utf8 c = true
    · rw [if_pos hu]
      exact ⟨h3.symm, ⟨ha.file, ha.here, hs, ha.globals, ha.cache⟩, by rw [hs]⟩
    · rw [if_neg hu]
      exact h2.resolve_left hu

theorem unstore_spec (henv : EnvOk fs env) {s : PState} (ha : At env.marked s) {E : ParseError → Prop} :
    wp (unstore env.cur) s (fun _ s' => At env s' ∧
      s' = { s with inc := { s.inc with opened := env.anc } }) E := by
  simp only [wp, unstore]
  have ho : s.inc.opened = env.stack := ha.opened
  unfold EnvOk at henv
  cases hf : env.file with
  | none =>
    rw [hf] at henv
    obtain ⟨h1, h2⟩ := henv
    have hs : env.stack = [] := by simp [Env.stack, h1, h2]
    rw [h1]
    refine ⟨⟨ha.file, ha.here, by rw [ho, hs, h2], ha.globals, ha.cache⟩, ?_⟩
    rw [h2, ← hs, ← ho]
  | some f =>
    rw [hf] at henv
    obtain ⟨c, h1, h2, h3, h4⟩ := henv
    rw [h3]
    simp only
    have hfil : s.inc.opened.filter (fun g => g != c) = env.anc := by
      rw [ho]
      simp only [Env.stack, h3, Option.toList_some, List.cons_append, List.nil_append,
        List.filter_cons, bne_self_eq_false, Bool.false_eq_true, if_false]
      apply List.filter_eq_self.2
      intro a ha
      simp only [bne_iff_ne, ne_eq]
      rintro rfl; exact h4 ha
    exact ⟨⟨ha.file, ha.here, hfil, ha.globals, ha.cache⟩, by rw [hfil]⟩

omit [PanicOk] in
theorem read_eq {path full : Str} (h : fs.resolve path = some full) (hf : fs.isFile path = true) :
    ∃ r, StrMap.get fs.nodes full = some r ∧ fs.read path = r := by
  simp only [FS.isFile, h] at hf
  obtain ⟨r, hr⟩ := Option.isSome_iff_exists.1 hf
  exact ⟨r, hr, by simp [FS.read, h, hr]⟩

/-- The environment of an included file. -/
def Env.sub (env : Env) (path text full : Str) : Env := ⟨some path, text, some full, env.stack⟩

theorem envOk_sub {path text full : Str} (h1 : fs.resolve path = some full) (h2 : fs.utf8 full = true)
    (h3 : full ∉ env.stack) : EnvOk fs (env.sub path text full) := ⟨full, h1, .inl h2, rfl, h3⟩

omit [PanicOk] in
theorem at_sub {path text full : Str} {s : PState} (ha : At env.marked s) :
    At (env.sub path text full) { s with stream := Stream.ofString (some path) text, globals := [] } :=
  ⟨rfl, Here.start text, ha.opened, by intro e he; simp at he, ha.cache⟩

theorem loadFile_spec (hpv : PvOk fs main n pv) (kind : IncKind) {path full : Str} {s : PState}
    (ha : At env.marked s) (h1 : fs.resolve path = some full) (h2 : fs.utf8 full = true)
    (h3 : fs.isFile path = true) (h4 : full ∉ env.stack) (hm : fs.sizeExcl env.stack ≤ n) :
    wp (loadFile fs pv kind path) s (fun v s' => At env.marked s' ∧ s'.stream = s.stream ∧ Good v ∧
      ∃ text, fs.read path = .ok text ∧ FileText kind text) (ErrOk fs main) := by
  obtain ⟨r, h5, h6⟩ := read_eq h1 h3
  simp only [wp, loadFile, h6]
  cases r with
  | error msg => exact .inr ⟨rfl, path, msg, h6, rfl⟩
  | ok text =>
    simp only
    have hsz := FS.sizeExcl_cons fs full env.stack h4 text h5
    by_cases hk : kind = .str
    · subst hk
      exact ⟨ha, rfl, good_str _, text, rfl, True.intro⟩
    have hb := parseFileBody_spec (envOk_sub h1 h2 h4) (.inr ⟨path, rfl, h6⟩) hpv kind hk
      (at_sub (path := path) (text := text) (full := full) ha)
      (by show text.length + fs.sizeExcl (full :: env.stack) ≤ n; omega)
    simp only [wp] at hb
    rw [if_neg hk]
    simp only [inFile]
    cases hp : parseFileBody pv kind
        { s with stream := Stream.ofString (some path) text, globals := [] } with
    | ok v s' =>
      rw [hp] at hb
      obtain ⟨b1, b2, b3⟩ := hb
      exact ⟨⟨ha.file, ha.here, b1.opened, ha.globals, b1.cache⟩, rfl, b2, text, rfl, b3⟩
    | err e => rw [hp] at hb; exact hb
    | panic => rw [hp] at hb; exact hb
    | oof => rw [hp] at hb; exact hb

theorem loadCached_spec (hpv : PvOk fs main n pv) (kind : IncKind) {path full : Str} {s : PState}
    (ha : At env.marked s) (h1 : fs.resolve path = some full) (h2 : fs.utf8 full = true)
    (h3 : fs.isFile path = true) (h4 : full ∉ env.stack) (hm : fs.sizeExcl env.stack ≤ n) :
    wp (loadCached fs pv kind path full) s (fun v s' => At env.marked s' ∧ s'.stream = s.stream ∧ Good v)
      (ErrOk fs main) := by
  simp only [wp, loadCached]
  cases hc : StrMap.get s.inc.cache full with
  | some v => exact ⟨ha, rfl, ha.cache _ (StrMap.get_mem hc)⟩
  | none =>
    simp only
    have hb := loadFile_spec hpv kind ha h1 h2 h3 h4 hm
    simp only [wp] at hb
    cases hp : loadFile fs pv kind path s with
    | ok v s' =>
      rw [hp] at hb
      obtain ⟨b1, b2, b3, -⟩ := hb
      refine ⟨⟨b1.file, b1.here, b1.opened, b1.globals, ?_⟩, b2, b3⟩
      intro e he
      rcases List.mem_cons.1 he with rfl | he
      · exact b3
      · exact b1.cache e he
    | err e => rw [hp] at hb; exact hb
    | panic => rw [hp] at hb; exact hb
    | oof => rw [hp] at hb; exact hb

theorem includeFileP_spec (henv : EnvOk fs env) (hsrc : Src fs main env.file env.full)
    (hpv : PvOk fs main n pv) (kind : IncKind) {p : Str} {l c : Nat} (hp : OperandAt env.full l c) {s : PState}
    (ha : At env s) (hm : fs.sizeExcl env.stack ≤ n) :
    wp (includeFileP fs pv kind p l c) s (fun v s' => At env s' ∧ s'.stream = s.stream ∧ Good v)
      (ErrOk fs main) := by
  unfold includeFileP
  rw [wp_bind]
  refine wp_mono (resolveInclude_spec henv hsrc ha hp) ?_ (fun _ h => h)
  rintro ⟨path, full⟩ s0 ⟨hs0, h1, h2, h3⟩
  obtain rfl := hs0.symm
  simp only at h1 h2 h3 ⊢
  rw [wp_bind]
  refine wp_mono (storeCurrent_spec henv ha) ?_ (fun _ h => h)
  rintro st s1 ⟨rfl, ha1, hs1⟩
  have ho : s1.inc.opened = env.stack := ha1.opened
  rw [wp_bind, wp_getOpened, ho, wp_ite]
  constructor
  · intro _
    exact err_of_kind (env := env.marked) hsrc ha1 (.cyclicInclude hp)
  · intro hns
    rw [wp_bind]
    refine wp_mono (loadCached_spec hpv kind ha1 h1 h2 h3 (by simpa using hns) hm) ?_ (fun _ h => h)
    rintro v s2 ⟨ha2, hs2, hg⟩
    rw [wp_bind]
    refine wp_mono (unstore_spec henv ha2) ?_ (fun _ h => h)
    rintro _ s3 ⟨ha3, hs3⟩
    refine ⟨ha3, ?_, hg⟩
    rw [hs3]
    show s2.stream = _
    rw [hs2, hs1]

theorem includeClose_spec (hsrc : Src fs main env.file env.full) {s : PState} (ha : At env s) :
    wp includeClose s (fun _ s' => At env s' ∧ ∃ g, Gap g ∧
      s.stream.rest = g ++ '>' :: s'.stream.rest) (ErrOk fs main) := by
  unfold includeClose
  rw [wp_bind]
  refine wp_mono (findCharP_spec ha) ?_ (fun _ h => h)
  rintro b s1 ⟨ha1, hb1, hb2⟩
  cases b with
  | false => simp only [Bool.not_false, if_true]; exact err_end hsrc ha1 (hb2 rfl).1
  | true =>
    simp only [Bool.not_true, Bool.false_eq_true, if_false]
    obtain ⟨g, e1, hg, ch, r, hr, hw, -⟩ := hb1 rfl
    rw [wp_bind, wp_nextP_cons hr]
    have hh := ha1.here
    rw [hr] at hh
    have ha2 := ha1.move hh.adv
    simp only
    by_cases hc : ch = '>'
    · subst hc
      rw [if_pos rfl]
      exact ⟨ha2, g, hg, by rw [e1, hr]⟩
    · rw [if_neg hc, wp_bind, wp_getPos]
      obtain ⟨k, h1, -, h3⟩ := hh.charAt_prev
      simp only [h1]
      refine err_of_kind hsrc ha2 (.invalidClosingBracket (h3 ?_))
      rintro rfl; exact absurd hw (by decide)

theorem parseInclude_spec (henv : EnvOk fs env) (hsrc : Src fs main env.file env.full)
    (hpv : PvOk fs main n pv) {pairs : List Pair} (hps : GoodPairs pairs) (depth : Nat) {s : PState}
    (ha : At env s) {r : Str} (hr : s.stream.rest = '<' :: r)
    (hm : s.stream.rest.length + fs.sizeExcl env.stack ≤ n + 1) :
    wp (parseInclude fs pv pairs depth) s (fun v s' => At env s' ∧ Good v ∧
      ∃ t txt, s.stream.rest = txt ++ s'.stream.rest ∧ SpTerm t txt) (ErrOk fs main) := by
  unfold parseInclude
  rw [wp_bind]
  refine wp_mono (checkDepth_spec hsrc ha hr) ?_ (fun _ h => h)
  rintro _ s0 ⟨hs0, -⟩
  obtain rfl := hs0.symm
  rw [wp_bind, wp_expectP hr]
  have hh := ha.here
  rw [hr] at hh
  have ha0 := ha.move hh.adv
  rw [wp_bind]
  refine wp_mono (findCharP_spec ha0) ?_ (fun _ h => h)
  rintro b s1 ⟨ha1, hb1, hb2⟩
  simp only at hb1 hb2
  cases b with
  | false => simp only [Bool.not_false, if_true]; exact err_end hsrc ha1 (hb2 rfl).1
  | true =>
    simp only [Bool.not_true, Bool.false_eq_true, if_false]
    obtain ⟨g, e1, hg, ch, r1, hr1, -, -⟩ := hb1 rfl
    have hl : s1.stream.rest.length + 1 ≤ s.stream.rest.length := by
      rw [hr, e1]; simp only [List.length_append, List.length_cons]; omega
    rw [wp_bind, wp_getPos, wp_bind]
    refine wp_mono (hpv env s1 pairs depth (some '>') true henv hsrc ha1 hps (by simp [hr1]) (by omega))
      ?_ (fun _ h => h)
    rintro v s2 ⟨ha2, hgv, tx, e2, ⟨e, hex⟩, hend⟩
    have hl2 : s2.stream.rest.length ≤ s1.stream.rest.length := by
      rw [e2]; simp only [List.length_append]; omega
    rw [wp_bind]
    refine wp_mono (includeKeyword_spec hsrc ha2 (ha1.operandAtExpr e2 hex)) ?_ (fun _ h => h)
    rintro kw s3 hsame
    have ha3 := hsame.at ha2
    have e3 : s3.stream.rest = s2.stream.rest := by rw [hsame.stream]
    rw [wp_bind]
    have hpath : wp (includePath pv pairs depth kw v s1.stream.pos) s3 (fun x s' => At env s' ∧ Good x.1 ∧
        OperandAt env.full x.2.line x.2.col ∧ ((s'.stream.rest = s2.stream.rest) ∨
          ∃ g' e' tx', Gap g' ∧ SpExpr e' tx' ∧ s2.stream.rest = g' ++ (tx' ++ s'.stream.rest)))
        (ErrOk fs main) := by
      unfold includePath
      cases kw with
      | none => exact ⟨ha3, hgv, ha1.operandAtExpr e2 hex, .inl e3⟩
      | some k =>
        simp only
        rw [wp_bind]
        refine wp_mono (findCharP_spec ha3) ?_ (fun _ h => h)
        rintro b s4 ⟨ha4, hb3, hb4⟩
        rw [e3] at hb3 hb4
        cases b with
        | false => simp only [Bool.not_false, if_true]; exact err_end hsrc ha4 (hb4 rfl).1
        | true =>
          simp only [Bool.not_true, Bool.false_eq_true, if_false]
          obtain ⟨g', e4, hg', ch', r4, hr4, -, -⟩ := hb3 rfl
          have hl4 : s4.stream.rest.length ≤ s2.stream.rest.length := by
            rw [e4]; simp only [List.length_append]; omega
          rw [wp_bind, wp_getPos, wp_bind]
          refine wp_mono (hpv env s4 pairs depth (some '>') true henv hsrc ha4 hps (by simp [hr4])
            (by omega)) ?_ (fun _ h => h)
          rintro w s5 ⟨ha5, hgw, tx', e5, ⟨e', hex'⟩, hend'⟩
          exact ⟨ha5, hgw, ha4.operandAtExpr e5 hex', .inr ⟨g', e', tx', hg', hex', by rw [e4, e5]⟩⟩
    refine wp_mono hpath ?_ (fun _ h => h)
    rintro ⟨w, p⟩ s4 ⟨ha4, hgw, hp, htxt⟩
    simp only at hgw hp ⊢
    rw [wp_bind]
    refine wp_mono (includeClose_spec hsrc ha4) ?_ (fun _ h => h)
    rintro _ s5 ⟨ha5, g2, hg2, e6⟩
    have htext : ∃ t txt, s.stream.rest = txt ++ s5.stream.rest ∧ SpTerm t txt := by
      rcases htxt with h | ⟨g', e', tx', hg', hex', h⟩
      · rw [h] at e6
        refine ⟨.incl e, _, ?_, .incl (.cons hg hex (.nil (eof := false) hg2) (.inl rfl))⟩
        rw [hr, e1, e2, e6]; simp
      · rw [e6] at h
        have hi : SpItems false [e'] (g' ++ (tx' ++ g2)) :=
          .cons hg' hex' (.nil (eof := false) hg2) (.inl rfl)
        refine ⟨.inclAs e e', _, ?_, .inclAs (.cons hg hex hi (hi.sep (brace := some '>')
          (r' := '>' :: s5.stream.rest) ?_))⟩
        · rw [hr, e1, e2, h]; simp
        · rw [h] at hend; simpa using hend
    cases w with
    | str p' =>
      simp only
      refine wp_mono (includeFileP_spec henv hsrc hpv _ hp ha5 (by omega)) ?_ (fun _ h => h)
      rintro u s6 ⟨h1, h2, h3⟩
      rw [h2]
      exact ⟨h1, h3, htext⟩
    | _ => exact err_of_kind hsrc ha5 (.expectedType hp)

/-! ## The knot -/

theorem parseTerm_spec (henv : EnvOk fs env) (hsrc : Src fs main env.file env.full)
    (hpv : PvOk fs main n pv) {pairs : List Pair} (hps : GoodPairs pairs) (depth : Nat)
    (brace : Option Char) {s : PState} (ha : At env s) (hne : s.stream.rest ≠ [])
    (hm : s.stream.rest.length + fs.sizeExcl env.stack ≤ n + 1) :
    wp (parseTerm fs pv pairs s.stream.pos.line s.stream.pos.col depth brace) s (fun v s' => At env s' ∧
      Good v ∧ ∃ t txt, s.stream.rest = txt ++ s'.stream.rest ∧ SpTerm t txt) (ErrOk fs main) := by
  unfold parseTerm
  rw [wp_bind, wp_peekP]
  cases hr : s.stream.rest with
  | nil => exact absurd hr hne
  | cons ch r =>
    simp only [List.head?_cons]
    rw [← hr]
    have hh := ha.here
    rw [hr] at hh
    by_cases h1 : ch = '"'
    · subst h1; exact parseStr_spec hsrc ha hr
    rw [if_neg h1]
    by_cases h1 : ch = '{'
    · subst h1; exact parseObj_spec henv hsrc hpv _ ha hr hm
    rw [if_neg h1]
    by_cases h1 : ch = '['
    · subst h1; exact parseArr_spec henv hsrc hpv hps _ ha hr hm
    rw [if_neg h1]
    by_cases h1 : ch = '('
    · subst h1; exact parseTup_spec henv hsrc hpv hps _ ha hr hm
    rw [if_neg h1]
    by_cases h1 : ch = '<'
    · subst h1; exact parseInclude_spec henv hsrc hpv hps _ ha hr hm
    rw [if_neg h1]
    by_cases h1 : ch = '+'
    · subst h1; exact parseUnary_spec henv hsrc hpv hps _ _ ha hr (.inr ⟨rfl, rfl⟩) hm
    rw [if_neg h1]
    by_cases h1 : ch = '-'
    · subst h1; exact parseUnary_spec henv hsrc hpv hps _ _ ha hr (.inl ⟨rfl, rfl⟩) hm
    rw [if_neg h1]
    by_cases h1 : isNumericChar ch = true
    · rw [if_pos h1]; exact parseNumeric_spec hsrc ha hr h1 hh.charAt
    rw [if_neg h1]
    by_cases h1 : (isValidFieldChar ch true || ch == '@') = true
    · rw [if_pos h1, wp_withBound]
      exact parseVariable_spec henv hsrc hpv _ pairs depth brace s hps ha hne hm
        (Nat.le_refl _)
    · rw [if_neg h1]
      exact err_of_kind hsrc ha (.invalidValueChar hh.charAt)

theorem parseValueBody_ok (hpv : PvOk fs main n pv) : PvOk fs main (n + 1) (parseValueBody fs pv) := by
  intro env s pairs depth brace first henv hsrc ha hps hne hm
  unfold parseValueBody
  rw [wp_bind]
  refine wp_mono (parseTerm_spec henv hsrc hpv hps depth brace ha hne hm) ?_ (fun _ h => h)
  rintro v s1 ⟨ha1, hg, t, txt, e1, ht⟩
  cases first with
  | false => exact ⟨ha1, hg, txt, e1, t, ht⟩
  | true =>
    rw [if_pos rfl]
    have hl : s1.stream.rest.length + 1 ≤ s.stream.rest.length := by
      have := List.length_pos_iff.2 ht.ne_nil
      rw [e1]; simp only [List.length_append]; omega
    refine wp_mono (parseOps_spec henv hsrc hpv hps depth brace hg (ha.operandAt e1 ht) ha1 (by omega)) ?_
      (fun _ h => h)
    rintro w s2 ⟨ha2, hgw, r, u, e2, hu, hend⟩
    exact ⟨ha2, hgw, txt ++ u, by rw [e1, e2]; simp, ⟨_, .mk ht hu⟩, hend⟩

theorem parseValue_ok (fs : FS) (main : Option Str × Str) : ∀ n, PvOk fs main n (parseValue fs n)
  | 0 => by
    intro env s pairs depth brace first _ _ _ _ hne hm
    exfalso
    have := List.length_pos_iff.2 hne
    omega
  | n + 1 => parseValueBody_ok (parseValue_ok fs main n)

end
end Over
