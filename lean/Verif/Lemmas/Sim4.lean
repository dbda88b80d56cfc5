import Verif.Lemmas.Sim3
import Verif.Lemmas.Top

/-!
# The parser follows the evaluator: includes and the knot
-/

set_option linter.unusedSectionVars false

namespace Over

theorem FS.filesExcl_cons (fs : FS) (full : Str) (stack : List Str) (hns : full ∉ stack)
    (r : Except Str Str) (h : StrMap.get fs.nodes full = some r) :
    fs.filesExcl (full :: stack) + 1 ≤ fs.filesExcl stack := by
  simp only [FS.filesExcl]
  have hm := StrMap.get_mem h
  clear h
  generalize fs.nodes = nodes at hm ⊢
  have hle : ∀ l : List (Str × Except Str Str),
      (l.filter (fun e => !(full :: stack).contains e.1)).length ≤
      (l.filter (fun e => !stack.contains e.1)).length := by
    intro l
    induction l with
    | nil => exact Nat.le_refl _
    | cons e l ih =>
      by_cases h1 : e.1 ∈ stack
      · simpa [h1] using ih
      · have h4 : (!stack.contains e.1) = true := by simp [h1]
        rw [List.filter_cons, List.filter_cons, if_pos h4]
        split <;> simp only [List.length_cons] <;> omega
  induction nodes with
  | nil => simp at hm
  | cons e l ih =>
    rcases List.mem_cons.1 hm with hm | hm
    · subst hm
      have h4 : (!stack.contains full) = true := by simp [hns]
      have h3 : ¬ (!(full :: stack).contains full) = true := by simp
      rw [List.filter_cons, List.filter_cons, if_pos h4, if_neg h3]
      simp only [List.length_cons]
      have := hle l
      omega
    · have := ih hm
      by_cases h1 : e.1 ∈ stack
      · simpa [h1] using this
      · have h4 : (!stack.contains e.1) = true := by simp [h1]
        rw [List.filter_cons, List.filter_cons, if_pos h4]
        split <;> simp only [List.length_cons] <;> omega

section
variable [Unicode] {fs : FS} {path text : Str}

theorem notNameStart {d : Char} (h : d.toNat < 64) : (isValidFieldChar d true || d == '@') = false := by
  rw [← Bool.not_eq_true, Bool.or_eq_true, validFieldChar_true_iff, beq_iff_eq]
  rintro ((h1 | rfl) | rfl)
  · have := h1.cases; omega
  · revert h; decide
  · revert h; decide

theorem notNameStart_brackets : (isValidFieldChar '{' true || '{' == '@') = false ∧
    (isValidFieldChar '[' true || '[' == '@') = false := by
  constructor
  · rw [← Bool.not_eq_true, Bool.or_eq_true, validFieldChar_true_iff, beq_iff_eq]
    rintro ((h1 | h1) | h1)
    · have := h1.cases; revert this; decide
    · revert h1; decide
    · revert h1; decide
  · rw [← Bool.not_eq_true, Bool.or_eq_true, validFieldChar_true_iff, beq_iff_eq]
    rintro ((h1 | h1) | h1)
    · have := h1.cases; revert this; decide
    · revert h1; decide
    · revert h1; decide

theorem loadN_io {msg : Str} (h : fs.read path = .error msg) (K : Nat) (stack : List Str) (kind : IncKind) :
    loadN fs (K + 1) stack kind path = (fun _ => .error (.io msg) : EM Value) := by
  unfold loadN
  simp only [h]
  rfl

theorem loadN_str (h : fs.read path = .ok text) (K : Nat) (stack : List Str) :
    loadN fs (K + 1) stack .str path = (pure (.str text) : EM Value) := by
  unfold loadN
  simp only [h]

theorem loadN_obj (h : fs.read path = .ok text) (K : Nat) (stack : List Str) (hd : ∃ d, SpDoc d text) :
    loadN fs (K + 1) stack .obj path = EM.ownGlobals (do
            let o ← evalDoc fs (some path) stack (loadN fs K) hd.choose
            pure (.obj o)) := by
  unfold loadN
  simp only [h]
  exact dif_pos hd

theorem loadN_arr (h : fs.read path = .ok text) (K : Nat) (stack : List Str)
    (hd : ∃ d, SpItems true d text) :
    loadN fs (K + 1) stack .arr path =
      EM.ownGlobals (evalArrFile fs (some path) stack (loadN fs K) hd.choose) := by
  unfold loadN
  simp only [h]
  exact dif_pos hd

theorem loadN_tup (h : fs.read path = .ok text) (K : Nat) (stack : List Str)
    (hd : ∃ d, SpItems true d text) :
    loadN fs (K + 1) stack .tup path =
      EM.ownGlobals (evalTupFile fs (some path) stack (loadN fs K) hd.choose) := by
  unfold loadN
  simp only [h]
  exact dif_pos hd

theorem loadN_malformed (h : fs.read path = .ok text) (K : Nat) (stack : List Str) {kind : IncKind}
    (hd : ¬ FileText kind text) :
    loadN fs (K + 1) stack kind path = (fun _ => .error .malformed : EM Value) := by
  unfold loadN
  simp only [h]
  cases kind with
  | str => exact absurd True.intro hd
  | obj => exact dif_neg hd
  | arr => exact dif_neg hd
  | tup => exact dif_neg hd

end

section
variable [Unicode] [PanicOk]
variable {fs : FS} {main : Option Str × Str} {env : Env} {n : Nat} {pv : PV}

theorem includeKeyword_sim {s : PState} (ha : At env s) (v : Value) (l c : Nat) :
    sim (includeKeyword v l c) (evalKeyword env.file v) s
      (fun x y s' => x = y ∧ Same s s' ∧ ((x = none ∧ ∃ p, v = .str p) ∨ ∃ k, x = some k)) := by
  unfold includeKeyword evalKeyword
  cases v with
  | obj o =>
    have step : ∀ (k r : IncKind) (s : PState) (m : P (Option IncKind)) (e : EM (Option IncKind)),
        (∀ s', Same s s' → sim m e s' (fun x y s'' => x = y ∧ Same s' s'' ∧
          ((x = none ∧ ∃ p, Value.obj o = .str p) ∨ ∃ k, x = some k))) →
        sim (do let i ← forceSentinel k; if o.id = i then pure (some r) else m)
          (do let i ← EM.keywordId k; if o.id = i then pure (some r) else e) s
          (fun x y s'' => x = y ∧ Same s s'' ∧
          ((x = none ∧ ∃ p, Value.obj o = .str p) ∨ ∃ k, x = some k)) := by
      intro k r s m e h
      refine sim_bind (forceSentinel_sim k) ?_
      rintro i _ s' ⟨rfl, hs⟩
      by_cases hi : o.id = i
      · rw [if_pos hi, if_pos hi]; exact sim_pure ⟨rfl, hs, .inr ⟨_, rfl⟩⟩
      · rw [if_neg hi, if_neg hi]
        refine sim_mono (h s' hs) ?_
        rintro x y s'' ⟨h1, h2, h3⟩
        exact ⟨h1, hs.trans h2, h3⟩
    refine step .obj .obj s _ _ fun s1 h1 => ?_
    refine step .str .str s1 _ _ fun s2 h2 => ?_
    refine step .arr .arr s2 _ _ fun s3 h3 => ?_
    refine step .tup .tup s3 _ _ fun s4 h4 => ?_
    exact sim_fail (h4.at (h3.at (h2.at (h1.at ha)))).file .includeToken
  | str p => exact sim_pure ⟨rfl, Same.refl s, .inl ⟨rfl, p, rfl⟩⟩
  | _ => exact sim_fail ha.file .includeToken

theorem inFile_sim {path text : Str} {m : P Value} {ev : EM Value} {s : PState}
    (h : sim m ev { s with stream := Stream.ofString (some path) text, globals := [] }
      (fun v w _ => v = w)) :
    sim (inFile path text m) (EM.ownGlobals ev) s (fun v w s' => v = w ∧ s'.stream = s.stream) := by
  unfold sim wp at h ⊢
  simp only [inFile, EM.ownGlobals]
  have e0 : PState.est { s with stream := Stream.ofString (some path) text, globals := [] } =
      { s.est with globals := [] } := rfl
  rw [e0] at h
  cases hm : m { s with stream := Stream.ofString (some path) text, globals := [] } with
  | ok v s' =>
    rw [hm] at h
    obtain ⟨w, h1, rfl⟩ := h
    rw [h1]
    exact ⟨v, rfl, rfl, rfl⟩
  | err e =>
    rw [hm] at h
    obtain ⟨se, h1, h2⟩ := h
    rw [h1]
    exact ⟨se, rfl, h2⟩
  | panic => rw [hm] at h; exact h
  | oof => rw [hm] at h; exact h

theorem loadFile_sim (hok : ∀ main, PvOk fs main n pv) (hpv : PvSim fs main n pv) (kind : IncKind)
    {path full : Str} {s : PState}
    (ha : At env.marked s) (h1 : fs.resolve path = some full) (h2 : fs.utf8 full = true)
    (h3 : fs.isFile path = true) (h4 : full ∉ env.stack) (hm : fs.sizeExcl env.stack ≤ n)
    {K : Nat} (hK : fs.filesExcl env.stack ≤ K) :
    sim (loadFile fs pv kind path) (loadN fs K (full :: env.stack) kind path) s
      (fun v w s' => v = w ∧ s'.stream = s.stream) := by
  obtain ⟨r, h5, h6⟩ := read_eq h1 h3
  have hfe := FS.filesExcl_cons fs full env.stack h4 r h5
  obtain ⟨K, rfl⟩ : ∃ K', K = K' + 1 := ⟨K - 1, by omega⟩
  have hK' : fs.filesExcl (env.sub path [] full).stack ≤ K := by
    show fs.filesExcl (full :: env.stack) ≤ K
    omega
  unfold loadFile
  simp only [h6]
  cases r with
  | error msg => rw [loadN_io h6]; exact ⟨.io msg, rfl, .io⟩
  | ok text =>
    simp only
    have hsz := FS.sizeExcl_cons fs full env.stack h4 text h5
    have hsz' : text.length + fs.sizeExcl (full :: env.stack) ≤ n := by omega
    have henv' : EnvOk fs (env.sub path text full) := envOk_sub h1 h2 h4
    have hsrc' : Src fs main (env.sub path text full).file (env.sub path text full).full :=
      .inr ⟨path, rfl, h6⟩
    have hat := at_sub (path := path) (text := text) (full := full) ha
    have hmal : ∀ (k : IncKind), k ≠ .str → ¬ FileText k text →
        sim (inFile path text (parseFileBody pv k)) (fun _ => .error .malformed : EM Value) s
          (fun v w s' => v = w ∧ s'.stream = s.stream) := by
      intro k hk hT
      have hb := loadFile_spec (hok (some path, text)) k ha h1 h2 h3 h4 hm
      unfold loadFile at hb
      simp only [h6, if_neg hk] at hb
      refine wp_mono hb ?_ (fun e he => ⟨.malformed, rfl, .malformed ?_⟩)
      rotate_left
      · rcases he with ⟨_, (⟨h, -⟩ | ⟨p, h, -⟩), -⟩ | ⟨h, _, msg, -, hk⟩
        · exact .inl ⟨path, h⟩
        · exact .inl ⟨p, h⟩
        · obtain ⟨f, k⟩ := e
          simp only at h hk
          exact .inr ⟨msg, by rw [h, hk]⟩
      rintro v s' ⟨-, -, -, text', e, ht⟩
      simp only [Except.ok.injEq] at e
      subst e
      exact absurd ht hT
    cases kind with
    | str => rw [loadN_str h6, if_pos rfl]; exact sim_pure ⟨rfl, rfl⟩
    | obj =>
      simp only [reduceCtorEq, if_false]
      by_cases hd : ∃ d, SpDoc d text
      · rw [loadN_obj h6 K _ hd]
        apply inFile_sim
        unfold parseFileBody
        refine sim_bind (parseObjStream_sim (env := env.sub path text full) henv' hsrc' hpv hK' hat
          (d := hd.choose) hd.choose_spec hsz') ?_
        rintro o _ s' ⟨rfl, -⟩
        exact sim_pure rfl
      · rw [loadN_malformed (kind := .obj) h6 K _ hd]
        exact hmal .obj (by decide) hd
    | arr =>
      simp only [reduceCtorEq, if_false]
      by_cases hd : ∃ d, SpItems true d text
      · rw [loadN_arr h6 K _ hd]
        apply inFile_sim
        unfold parseFileBody evalArrFile
        refine sim_bind (sim_withBound (arrFileLoop_sim (env := env.sub path text full) henv' hsrc' hpv hK' _
          hd.choose [] .any true _ rfl hat hd.choose_spec hsz' (Nat.le_refl _))) ?_
        rintro x ⟨vs, t⟩ s2 rfl
        refine sim_bind (sim_genId (Q := fun i j s' => i = j) rfl) ?_
        rintro i _ s3 rfl
        exact sim_pure rfl
      · rw [loadN_malformed (kind := .arr) h6 K _ hd]
        exact hmal .arr (by decide) hd
    | tup =>
      simp only [reduceCtorEq, if_false]
      by_cases hd : ∃ d, SpItems true d text
      · rw [loadN_tup h6 K _ hd]
        apply inFile_sim
        unfold parseFileBody evalTupFile
        refine sim_bind (sim_withBound (tupFileLoop_sim (env := env.sub path text full) henv' hsrc' hpv hK' _
          hd.choose [] _ hat hd.choose_spec hsz' (Nat.le_refl _))) ?_
        rintro x vs s2 rfl
        refine sim_bind (sim_genId (Q := fun i j s' => i = j) rfl) ?_
        rintro i _ s3 rfl
        exact sim_pure rfl
      · rw [loadN_malformed (kind := .tup) h6 K _ hd]
        exact hmal .tup (by decide) hd

/-- The path part of an include, in the evaluator. -/
def evalResolve (fs : FS) (file : Option Str) (p : Str) : EM (Str × Str) :=
  match fs.resolve (meantIn file p) with
  | none => .fail file (.includePath p)
  | some full =>
    if fs.isFile (meantIn file p) = false ∨ fs.utf8 full = false then .fail file (.includePath p)
    else pure (meantIn file p, full)

/-- The cache, in the evaluator. -/
def evalCached (stack : List Str) (load : Loader) (kind : IncKind) (path full : Str) : EM Value :=
  fun st => match StrMap.get st.cache full with
      | some v => .ok (v, st)
      | none => match load (full :: stack) kind path st with
        | .ok (v, st') => .ok (v, { st' with cache := StrMap.insert st'.cache full v })
        | .error e => .error e

theorem evalInclude_eq (fs : FS) (file : Option Str) (stack : List Str) (load : Loader) (kind : IncKind)
    (p : Str) : evalInclude fs file stack load kind p =
      (evalResolve fs file p >>= fun x =>
        if x.2 ∈ stack then .fail file (.cyclicInclude p) else evalCached stack load kind x.1 x.2) := by
  show (match fs.resolve (meantIn file p) with
  | none => EM.fail file (.includePath p)
  | some full =>
    if fs.isFile (meantIn file p) = false ∨ fs.utf8 full = false then EM.fail file (.includePath p)
    else if full ∈ stack then EM.fail file (.cyclicInclude p)
    else evalCached stack load kind (meantIn file p) full) = _
  unfold evalResolve
  cases fs.resolve (meantIn file p) with
  | none => rfl
  | some full =>
    simp only
    split
    · rfl
    · rfl

theorem resolveInclude_sim (henv : EnvOk fs env) {s : PState} (ha : At env s) (p : Str) (l c : Nat) :
    sim (resolveInclude fs p l c) (evalResolve fs env.file p) s (fun x y s' => s' = s ∧ x = y ∧
      fs.resolve x.1 = some x.2 ∧ fs.utf8 x.2 = true ∧ fs.isFile x.1 = true) := by
  unfold resolveInclude evalResolve
  refine sim_left (m := getFile) ?_
  show s.est = s.est ∧ _
  refine ⟨rfl, ?_⟩
  rw [ha.file, includeTarget_eq henv.parent]
  simp only
  generalize meantIn env.file p = path
  cases h2 : fs.resolve path with
  | none =>
    have h1 : fs.isFile path = false := by simp [FS.isFile, h2]
    simp only [h1, Bool.not_false, if_true]
    exact sim_fail ha.file .includePath
  | some full =>
    simp only
    by_cases h1 : fs.isFile path = true
    · by_cases h3 : fs.utf8 full = true
      · simp only [h1, h3, Bool.not_true, Bool.false_eq_true, if_false, reduceCtorEq, or_self]
        exact sim_pure ⟨rfl, rfl, h2, h3, h1⟩
      · simp only [h1, h3, Bool.not_true, Bool.false_eq_true, if_false, Bool.not_false, if_true, or_true]
        exact sim_fail ha.file .includePath
    · simp only [h1, Bool.not_false, if_true, true_or]
      exact sim_fail ha.file .includePath

theorem loadCached_sim (hok : ∀ main, PvOk fs main n pv) (hpv : PvSim fs main n pv) (kind : IncKind)
    {path full : Str} {s : PState}
    (ha : At env.marked s) (h1 : fs.resolve path = some full) (h2 : fs.utf8 full = true)
    (h3 : fs.isFile path = true) (h4 : full ∉ env.stack) (hm : fs.sizeExcl env.stack ≤ n)
    {K : Nat} (hK : fs.filesExcl env.stack ≤ K) :
    sim (loadCached fs pv kind path full) (evalCached env.stack (loadN fs K) kind path full) s
      (fun v w s' => v = w ∧ s'.stream = s.stream) := by
  have hl := loadFile_sim hok hpv kind ha h1 h2 h3 h4 hm hK
  unfold sim wp at hl ⊢
  unfold loadCached evalCached
  simp only
  have ec : s.est.cache = s.inc.cache := rfl
  rw [ec]
  cases hc : StrMap.get s.inc.cache full with
  | some v => exact ⟨v, rfl, rfl, rfl⟩
  | none =>
    simp only
    cases hp : loadFile fs pv kind path s with
    | ok v s' =>
      rw [hp] at hl
      obtain ⟨w, e, rfl, hs⟩ := hl
      rw [e]
      exact ⟨v, rfl, rfl, hs⟩
    | err e =>
      rw [hp] at hl
      obtain ⟨se, e, hr⟩ := hl
      rw [e]
      exact ⟨se, rfl, hr⟩
    | panic => rw [hp] at hl; exact hl
    | oof => rw [hp] at hl; exact hl

theorem includeFileP_sim (henv : EnvOk fs env)
    (hok : ∀ main, PvOk fs main n pv) (hpv : PvSim fs main n pv) (kind : IncKind) (p : Str) (l c : Nat) {s : PState}
    (ha : At env s) (hm : fs.sizeExcl env.stack ≤ n) {K : Nat} (hK : fs.filesExcl env.stack ≤ K) :
    sim (includeFileP fs pv kind p l c) (evalInclude fs env.file env.stack (loadN fs K) kind p) s
      (fun v w s' => v = w ∧ s'.stream = s.stream) := by
  rw [evalInclude_eq]
  unfold includeFileP
  refine sim_bind (resolveInclude_sim henv ha p l c) ?_
  rintro ⟨path, full⟩ _ s0 ⟨hs0, rfl, h1, h2, h3⟩
  obtain rfl := hs0.symm
  simp only at h1 h2 h3 ⊢
  refine sim_left (wp_mono (storeCurrent_spec henv ha (E := fun _ => False)) ?_ (fun _ h => h))
  rintro st s1 ⟨rfl, ha1, hs1⟩
  refine ⟨by rw [hs1]; rfl, ?_⟩
  refine sim_left (m := getOpened) ?_
  show s1.est = s1.est ∧ _
  refine ⟨rfl, ?_⟩
  have ho : s1.inc.opened = env.stack := ha1.opened
  have hst : s1.stream = s.stream := by rw [hs1]
  rw [ho]
  by_cases hc : full ∈ env.stack
  · have : env.stack.contains full = true := by simpa using hc
    rw [if_pos this, if_pos hc]
    exact sim_fail (by rw [hst]; exact ha.file) .cyclicInclude
  · have : ¬ env.stack.contains full = true := by simpa using hc
    rw [if_neg this, if_neg hc]
    refine sim_last (loadCached_sim hok hpv kind ha1 h1 h2 h3 hc hm hK) ?_
    rintro v _ s2 ⟨rfl, hs2⟩
    refine sim_left (m := unstore env.cur) ?_
    have : ∀ (o : Option Str) (s : PState), ∃ s', unstore o s = .ok () s' ∧ s'.est = s.est ∧
        s'.stream = s.stream := by
      intro o s
      cases o with
      | none => exact ⟨s, rfl, rfl, rfl⟩
      | some f => exact ⟨_, rfl, rfl, rfl⟩
    obtain ⟨s3, e, e1, e2⟩ := this env.cur s2
    simp only [wp, e]
    exact ⟨e1, sim_pure ⟨rfl, by rw [e2, hs2, hst]⟩⟩

/-- `pv` fails at a closing `>`. -/
def PvGt (n : Nat) (pv : PV) : Prop :=
  ∀ (s : PState) (pairs : List Pair) (l c depth : Nat) (brace : Option Char) (r : Str),
    s.stream.rest = '>' :: r → s.stream.rest.length ≤ n →
    pv pairs l c depth brace true s = .err ⟨s.stream.file, .invalidValueChar '>' l c⟩

theorem includeClose_sim {γ δ : Type} {f : Unit → P γ} {ev : EM δ} {R : γ → δ → PState → Prop} {s : PState}
    (ha : At env s) {g : Str} (hg : Gap g) {r : Str} (hr : s.stream.rest = g ++ '>' :: r)
    (h : ∀ s', At env s' → s'.stream.rest = r → sim (f ()) ev s' R) :
    sim (includeClose >>= f) ev s R := by
  refine sim_left ?_
  unfold includeClose
  rw [wp_bind, wp_findCharP]
  have hf : findCharGo false s.stream.rest s.stream.pos = (true, '>' :: r, s.stream.pos.advs g) := by
    rw [hr, findCharGo_gap hg, findCharGo_stop (by decide) (by decide)]
  simp only [Stream.findChar, hf, Bool.not_true, Bool.false_eq_true, if_false]
  rw [wp_bind, wp_nextP_cons (c := '>') (r := r) rfl]
  simp only [if_true]
  refine ⟨rfl, h _ (ha.move ?_) rfl⟩
  have := ha.here
  rw [hr] at this
  exact this.advs.adv

theorem includeClose_fail {γ : Type} {f : Unit → P γ} {δ : Type} {R : γ → δ → PState → Prop} {s : PState}
    (ha : At env s) {g : Str} (hg : Gap g) {c : Char} {r : Str} (hr : s.stream.rest = g ++ c :: r)
    (hc : TermStart c) :
    sim (includeClose >>= f) (EM.fail env.file .includeForm : EM δ) s R := by
  unfold sim
  rw [wp_bind]
  unfold includeClose
  rw [wp_bind, wp_findCharP]
  have hf : findCharGo false s.stream.rest s.stream.pos = (true, c :: r, s.stream.pos.advs g) := by
    rw [hr, findCharGo_gap hg, findCharGo_stop hc.1 hc.2.1]
  simp only [Stream.findChar, hf, Bool.not_true, Bool.false_eq_true, if_false]
  rw [wp_bind, wp_nextP_cons (c := c) (r := r) rfl]
  have hcn : c ≠ '>' := by rintro rfl; exact absurd hc.2.2 (by decide)
  simp only [if_neg hcn]
  rw [wp_bind, wp_getPos]
  have hh := ha.here
  rw [hr] at hh
  obtain ⟨k, h1, -, -⟩ := hh.advs.charAt_prev
  simp only [h1]
  refine ⟨_, rfl, ?_⟩
  show SemErr.Reported _ ⟨s.stream.file, _⟩
  rw [ha.file]
  exact .sem .noKind

theorem parseInclude_sim (henv : EnvOk fs env) (hsrc : Src fs main env.file env.full)
    (hok : ∀ main, PvOk fs main n pv) (hpv : PvSim fs main n pv) (hgt : PvGt n pv)
    {pairs : List Pair} (hps : GoodPairs pairs) (depth : Nat) {K : Nat}
    (hK : fs.filesExcl env.stack ≤ K)
    {s : PState} (ha : At env s) {rest' : Str} {e : Expr} {txt : Str} (hsp : SpItems false [e] txt)
    (hr : s.stream.rest = '<' :: (txt ++ '>' :: rest'))
    (hm : s.stream.rest.length + fs.sizeExcl env.stack ≤ n + 1) :
    sim (parseInclude fs pv pairs (depth + 1))
      (evalTerm fs env.file env.stack (loadN fs K) (.incl e) pairs depth) s
      (fun x y s' => x = y ∧ s'.stream.rest = rest') := by
  unfold parseInclude evalTerm
  refine sim_bind (checkDepth_sim ha _) ?_
  rintro _ _ s0 hs0
  obtain rfl := hs0.symm
  refine sim_expectP hr ?_
  have hh := ha.here
  rw [hr] at hh
  have ha1 := ha.move hh.adv
  rcases hsp.strip with ⟨h, -⟩ | ⟨e', es', g, tx, r', hes, rfl, hg, he, hsp', hsep⟩
  · cases h
  simp only [List.cons.injEq] at hes
  obtain ⟨rfl, rfl⟩ := hes
  obtain ⟨c, tx0, htx, hc⟩ := he.head
  refine findCharP_gap ha1 hg (c := c) (r := tx0 ++ (r' ++ '>' :: rest')) (by rw [htx]; simp) hc.1 hc.2.1 ?_
  intro s1 ha2 hr1
  simp only [Bool.not_true, Bool.false_eq_true, if_false]
  refine sim_getPos ?_
  have hr1' : s1.stream.rest = tx ++ (r' ++ '>' :: rest') := by rw [hr1, htx]; rfl
  have hl1 : s1.stream.rest.length + 1 ≤ s.stream.rest.length := by
    rw [hr, hr1']; simp only [List.length_append, List.length_cons]; omega
  refine sim_bind ((hpv env s1 pairs (depth + 1) (some '>') K tx _ henv hsrc ha2 hps (by omega) hK hr1').2 e
    he (hsp'.exprEnd (.inr ⟨_, _, rfl, rfl, rfl, by decide⟩) hsep)) ?_
  rintro v _ s2 ⟨rfl, ha3, hgv, hr2⟩
  refine sim_bind (includeKeyword_sim ha3 v _ _) ?_
  rintro kw _ s3 ⟨rfl, hs3, hkw⟩
  have ha4 := hs3.at ha3
  have hr3 : s3.stream.rest = r' ++ '>' :: rest' := by rw [hs3.stream, hr2]
  have hgap : Gap r' := by
    rcases hsp'.strip with ⟨-, h⟩ | ⟨_, _, _, _, _, h, -⟩
    · simpa [LastGap] using h
    · cases h
  have hl3 : s3.stream.rest.length ≤ s1.stream.rest.length := by
    rw [hr3, hr1']; simp only [List.length_append]; omega
  rcases hkw with ⟨rfl, p, rfl⟩ | ⟨k, rfl⟩
  · unfold includePath
    refine sim_left (m := pure _) ⟨rfl, ?_⟩
    simp only
    refine includeClose_sim ha4 hgap hr3 ?_
    intro s4 ha5 hr4
    refine sim_mono (includeFileP_sim henv hok hpv .obj p _ _ ha5 (by omega) hK) ?_
    rintro x y s5 ⟨h1, h2⟩
    exact ⟨h1, by rw [h2, hr4]⟩
  · have aux : ∀ (m : P Value) (ev : EM Value) (Q : Value → Value → PState → Prop),
        ev = .fail env.file .includeForm → sim m (.fail env.file .includeForm) s3 Q → sim m ev s3 Q := by
      rintro m _ Q rfl h; exact h
    refine aux _ _ _ (by cases v <;> rfl) ?_
    unfold sim
    rw [wp_bind]
    unfold includePath
    simp only
    rw [wp_bind, wp_findCharP]
    have hf : findCharGo false s3.stream.rest s3.stream.pos =
        (true, '>' :: rest', s3.stream.pos.advs r') := by
      rw [hr3, findCharGo_gap hgap, findCharGo_stop (by decide) (by decide)]
    simp only [Stream.findChar, hf, Bool.not_true, Bool.false_eq_true, if_false]
    rw [wp_bind, wp_getPos, wp_bind]
    have hlt : (List.length ('>' :: rest')) ≤ n := by
      rw [hr3] at hl3; simp only [List.length_append, List.length_cons] at hl3 ⊢; omega
    have := hgt { s3 with stream := { s3.stream with rest := '>' :: rest', pos := s3.stream.pos.advs r' } }
      pairs (s3.stream.pos.advs r').line (s3.stream.pos.advs r').col (depth + 1) (some '>') rest' rfl hlt
    simp only [wp, this]
    refine ⟨_, rfl, ?_⟩
    rw [ha4.file]
    exact .sem .noPath

theorem parseIncludeAs_sim (henv : EnvOk fs env) (hsrc : Src fs main env.file env.full)
    (hok : ∀ main, PvOk fs main n pv) (hpv : PvSim fs main n pv)
    {pairs : List Pair} (hps : GoodPairs pairs) (depth : Nat) {K : Nat}
    (hK : fs.filesExcl env.stack ≤ K)
    {s : PState} (ha : At env s) {rest' : Str} {k e : Expr} {txt : Str} (hsp : SpItems false [k, e] txt)
    (hr : s.stream.rest = '<' :: (txt ++ '>' :: rest'))
    (hm : s.stream.rest.length + fs.sizeExcl env.stack ≤ n + 1) :
    sim (parseInclude fs pv pairs (depth + 1))
      (evalTerm fs env.file env.stack (loadN fs K) (.inclAs k e) pairs depth) s
      (fun x y s' => x = y ∧ s'.stream.rest = rest') := by
  unfold parseInclude evalTerm
  refine sim_bind (checkDepth_sim ha _) ?_
  rintro _ _ s0 hs0
  obtain rfl := hs0.symm
  refine sim_expectP hr ?_
  have hh := ha.here
  rw [hr] at hh
  have ha1 := ha.move hh.adv
  rcases hsp.strip with ⟨h, -⟩ | ⟨e', es', g, tx, r', hes, rfl, hg, he, hsp', hsep⟩
  · cases h
  simp only [List.cons.injEq] at hes
  obtain ⟨rfl, rfl⟩ := hes
  obtain ⟨c, tx0, htx, hc⟩ := he.head
  refine findCharP_gap ha1 hg (c := c) (r := tx0 ++ (r' ++ '>' :: rest')) (by rw [htx]; simp) hc.1 hc.2.1 ?_
  intro s1 ha2 hr1
  simp only [Bool.not_true, Bool.false_eq_true, if_false]
  refine sim_getPos ?_
  have hr1' : s1.stream.rest = tx ++ (r' ++ '>' :: rest') := by rw [hr1, htx]; rfl
  have hl1 : s1.stream.rest.length + 1 ≤ s.stream.rest.length := by
    rw [hr, hr1']; simp only [List.length_append, List.length_cons]; omega
  refine sim_bind ((hpv env s1 pairs (depth + 1) (some '>') K tx _ henv hsrc ha2 hps (by omega) hK hr1').2 k
    he (hsp'.exprEnd (.inr ⟨_, _, rfl, rfl, rfl, by decide⟩) hsep)) ?_
  rintro v _ s2 ⟨rfl, ha3, hgv, hr2⟩
  refine sim_bind (includeKeyword_sim ha3 v _ _) ?_
  rintro kw _ s3 ⟨rfl, hs3, hkw⟩
  have ha4 := hs3.at ha3
  have hr3 : s3.stream.rest = r' ++ '>' :: rest' := by rw [hs3.stream, hr2]
  have hl3 : s3.stream.rest.length ≤ s1.stream.rest.length := by
    rw [hr3, hr1']; simp only [List.length_append]; omega
  rcases hsp'.strip with ⟨h, -⟩ | ⟨e', es', g', tx', r2, hes, rfl, hg', he', hsp2, hsep2⟩
  · cases h
  simp only [List.cons.injEq] at hes
  obtain ⟨rfl, rfl⟩ := hes
  obtain ⟨c', tx1, htx', hc'⟩ := he'.head
  rcases hkw with ⟨rfl, p, rfl⟩ | ⟨kd, rfl⟩
  · unfold includePath
    refine sim_left (m := pure _) ⟨rfl, ?_⟩
    simp only
    exact includeClose_fail ha4 hg' (c := c') (r := tx1 ++ (r2 ++ '>' :: rest')) (by rw [hr3, htx']; simp) hc'
  · simp only
    have hgap : Gap r2 := by
      rcases hsp2.strip with ⟨-, h⟩ | ⟨_, _, _, _, _, h, -⟩
      · simpa [LastGap] using h
      · cases h
    have hpath : sim (includePath pv pairs (depth + 1) (some kd) v s1.stream.pos)
        (evalExpr fs env.file env.stack (loadN fs K) e pairs (depth + 1)) s3
        (fun x w s' => x.1 = w ∧ At env s' ∧ s'.stream.rest = r2 ++ '>' :: rest') := by
      unfold includePath
      simp only
      refine findCharP_gap ha4 hg' (c := c') (r := tx1 ++ (r2 ++ '>' :: rest'))
        (by rw [hr3, htx']; simp) hc'.1 hc'.2.1 ?_
      intro s4 ha5 hr4
      simp only [Bool.not_true, Bool.false_eq_true, if_false]
      refine sim_getPos ?_
      have hr4' : s4.stream.rest = tx' ++ (r2 ++ '>' :: rest') := by rw [hr4, htx']; rfl
      have hl4 : s4.stream.rest.length ≤ s3.stream.rest.length := by
        rw [hr3, hr4']; simp only [List.length_append, List.length_cons]; omega
      refine sim_last ((hpv env s4 pairs (depth + 1) (some '>') K tx' _ henv hsrc ha5 hps (by omega) hK
        hr4').2 e he' (hsp2.exprEnd (.inr ⟨_, _, rfl, rfl, rfl, by decide⟩) hsep2)) ?_
      rintro w _ s5 ⟨rfl, ha6, -, hr5⟩
      exact sim_pure ⟨rfl, ha6, hr5⟩
    refine sim_bind hpath ?_
    rintro ⟨w, p⟩ _ s5 ⟨rfl, ha6, hr5⟩
    simp only
    refine includeClose_sim ha6 hgap hr5 ?_
    intro s6 ha7 hr6
    cases w with
    | str p' =>
      refine sim_mono (includeFileP_sim henv hok hpv kd p' _ _ ha7 (by omega) hK) ?_
      rintro x y s7 ⟨h1, h2⟩
      exact ⟨h1, by rw [h2, hr6]⟩
    | _ => exact sim_fail ha7.file .expectedType

/-! ## The knot -/

theorem parseTerm_sim (henv : EnvOk fs env) (hsrc : Src fs main env.file env.full)
    (hok : ∀ main, PvOk fs main n pv) (hpv : PvSim fs main n pv) (hgt : PvGt n pv)
    {pairs : List Pair} (hps : GoodPairs pairs) (depth : Nat) (brace : Option Char) {K : Nat}
    (hK : fs.filesExcl env.stack ≤ K) {rest' : Str} (hf : Follow rest')
    {s : PState} (ha : At env s) {t : Term} {txt : Str} (ht : SpTerm t txt)
    (hr : s.stream.rest = txt ++ rest')
    (hm : s.stream.rest.length + fs.sizeExcl env.stack ≤ n + 1) :
    sim (parseTerm fs pv pairs s.stream.pos.line s.stream.pos.col depth brace)
      (evalTerm fs env.file env.stack (loadN fs K) t pairs depth) s
      (fun x y s' => x = y ∧ s'.stream.rest = rest') := by
  unfold parseTerm
  refine sim_peekP ?_
  have num : ∀ l c, t.isNumber = true →
      sim (parseNumeric l c) (evalTerm fs env.file env.stack (loadN fs K) t pairs depth) s
        (fun x y s' => x = y ∧ s'.stream.rest = rest') →
      sim (match s.stream.rest.head? with
        | none => panicP
        | some ch =>
          if ch = '"' then parseStr
          else if ch = '{' then parseObj pv (depth + 1)
          else if ch = '[' then parseArr pv pairs (depth + 1)
          else if ch = '(' then parseTup pv pairs (depth + 1)
          else if ch = '<' then parseInclude fs pv pairs (depth + 1)
          else if ch = '+' then parseUnary pv pairs depth brace .plus
          else if ch = '-' then parseUnary pv pairs depth brace .minus
          else if isNumericChar ch then parseNumeric l c
          else if isValidFieldChar ch true || ch == '@' then
            withBound fun n => parseVariable pv n pairs l c depth brace
          else fail (.invalidValueChar ch l c)) (evalTerm fs env.file env.stack (loadN fs K) t pairs depth) s
        (fun x y s' => x = y ∧ s'.stream.rest = rest') := by
    intro l c hn h
    obtain ⟨ch, r, rfl, hc⟩ := ht.numberHead hn
    rw [hr]
    simp only [List.cons_append, List.head?_cons]
    have ne : ∀ d, isNumericChar d = false → ch ≠ d := by
      rintro d hd rfl; rw [hc] at hd; cases hd
    rw [if_neg (ne _ (by decide)), if_neg (ne _ (by decide)), if_neg (ne _ (by decide)),
      if_neg (ne _ (by decide)), if_neg (ne _ (by decide)), if_neg (ne _ (by decide)),
      if_neg (ne _ (by decide)), if_pos hc]
    exact h
  have path : ∀ l c, l = s.stream.pos.line ∧ c = s.stream.pos.col → t.isPath = true →
      sim (match s.stream.rest.head? with
        | none => panicP
        | some ch =>
          if ch = '"' then parseStr
          else if ch = '{' then parseObj pv (depth + 1)
          else if ch = '[' then parseArr pv pairs (depth + 1)
          else if ch = '(' then parseTup pv pairs (depth + 1)
          else if ch = '<' then parseInclude fs pv pairs (depth + 1)
          else if ch = '+' then parseUnary pv pairs depth brace .plus
          else if ch = '-' then parseUnary pv pairs depth brace .minus
          else if isNumericChar ch then parseNumeric l c
          else if isValidFieldChar ch true || ch == '@' then
            withBound fun n => parseVariable pv n pairs l c depth brace
          else fail (.invalidValueChar ch l c)) (evalTerm fs env.file env.stack (loadN fs K) t pairs depth) s
        (fun x y s' => x = y ∧ s'.stream.rest = rest') := by
    intro l c hpos hp
    obtain ⟨ch, r, htx, h1, h2, -, -⟩ := ht.pathHead hp
    have hhd : s.stream.rest.head? = some ch := by rw [hr, htx]; rfl
    rw [hhd]
    simp only
    have ne : ∀ d, (isValidFieldChar d true || d == '@') = false → ch ≠ d := by
      rintro d hd rfl; rw [h1] at hd; cases hd
    rw [if_neg (ne _ (notNameStart (by decide))), if_neg (ne _ notNameStart_brackets.1),
      if_neg (ne _ notNameStart_brackets.2), if_neg (ne _ (notNameStart (by decide))),
      if_neg (ne _ (notNameStart (by decide))), if_neg (ne _ (notNameStart (by decide))),
      if_neg (ne _ (notNameStart (by decide))), if_neg (by simp [h2]), if_pos h1]
    exact sim_withBound (parseVariable_sim henv hsrc hpv hK hf _ pairs l c depth brace s t txt hps hpos ha hp
      ht hr hm (Nat.le_refl _))
  cases ht with
  | str hb =>
    rw [hr]
    simp only [List.cons_append, List.head?_cons, if_true]
    unfold evalTerm
    exact parseStr_sim hr hb
  | int h => refine num _ _ rfl ?_; unfold evalTerm; exact parseNumeric_int_sim hf hr h _ _
  | frac h => refine num _ _ rfl ?_; unfold evalTerm; exact parseNumeric_frac_sim hf hr h _ _
  | name h => exact path _ _ ⟨rfl, rfl⟩ rfl
  | dot _ _ _ => exact path _ _ ⟨rfl, rfl⟩ rfl
  | neg h =>
    have hhd : s.stream.rest.head? = some '-' := by rw [hr]; rfl
    rw [hhd]
    unfold evalTerm
    exact parseUnary_sim henv hsrc hpv hps depth brace hK hf ha (by rw [hr]; rfl) h (.inl ⟨rfl, rfl⟩) hm
  | pos h =>
    have hhd : s.stream.rest.head? = some '+' := by rw [hr]; rfl
    rw [hhd]
    unfold evalTerm
    exact parseUnary_sim henv hsrc hpv hps depth brace hK hf ha (by rw [hr]; rfl) h (.inr ⟨rfl, rfl⟩) hm
  | arr h =>
    have hhd : s.stream.rest.head? = some '[' := by rw [hr]; rfl
    rw [hhd]
    exact parseArr_sim henv hsrc hpv hps depth hK ha h (by rw [hr]; simp) hm
  | tup h =>
    have hhd : s.stream.rest.head? = some '(' := by rw [hr]; rfl
    rw [hhd]
    exact parseTup_sim henv hsrc hpv hps depth hK ha h (by rw [hr]; simp) hm
  | obj h =>
    have hhd : s.stream.rest.head? = some '{' := by rw [hr]; rfl
    rw [hhd]
    exact parseObj_sim henv hsrc hpv pairs depth hK ha h (by rw [hr]; simp) hm
  | incl h =>
    have hhd : s.stream.rest.head? = some '<' := by rw [hr]; rfl
    rw [hhd]
    exact parseInclude_sim henv hsrc hok hpv hgt hps depth hK ha h (by rw [hr]; simp) hm
  | inclAs h =>
    have hhd : s.stream.rest.head? = some '<' := by rw [hr]; rfl
    rw [hhd]
    exact parseIncludeAs_sim henv hsrc hok hpv hps depth hK ha h (by rw [hr]; simp) hm

theorem parseValueBody_sim (hok : ∀ main, PvOk fs main n pv) (hpv : PvSim fs main n pv) (hgt : PvGt n pv) :
    PvSim fs main (n + 1) (parseValueBody fs pv) := by
  intro env s pairs depth brace K txt rest' henv hsrc ha hps hm hK hr
  constructor
  · intro t ht hf
    have hne : s.stream.rest ≠ [] := by
      rw [hr]; intro h; exact ht.ne_nil (List.append_eq_nil_iff.1 h).1
    have h1 : sim (parseValueBody fs pv pairs s.stream.pos.line s.stream.pos.col depth brace false)
        (evalTerm fs env.file env.stack (loadN fs K) t pairs depth) s
        (fun x y s' => x = y ∧ s'.stream.rest = rest') := by
      unfold parseValueBody
      refine sim_last (parseTerm_sim henv hsrc hok hpv hgt hps depth brace hK hf ha ht hr hm) ?_
      rintro x _ s1 ⟨rfl, h⟩
      exact sim_pure ⟨rfl, h⟩
    refine sim_mono (sim_wp h1 (parseValueBody_ok (hok main) env s pairs depth brace false henv hsrc ha hps hne hm)) ?_
    rintro x y s' ⟨⟨h1, h2⟩, h3, h4, -⟩
    exact ⟨h1, h3, h4, h2⟩
  · intro e he hend
    have hne : s.stream.rest ≠ [] := by
      rw [hr]; intro h; exact he.ne_nil (List.append_eq_nil_iff.1 h).1
    have h1 : sim (parseValueBody fs pv pairs s.stream.pos.line s.stream.pos.col depth brace true)
        (evalExpr fs env.file env.stack (loadN fs K) e pairs depth) s
        (fun x y s' => x = y ∧ s'.stream.rest = rest') := by
      cases he with
      | @mk t r tx u ht hu =>
        unfold parseValueBody evalExpr
        rw [List.append_assoc] at hr
        refine sim_bind (sim_wp (parseTerm_sim henv hsrc hok hpv hgt hps depth brace hK (hu.follow hend) ha ht
          hr hm) (parseTerm_spec henv hsrc (hok main) hps depth brace ha hne hm)) ?_
        rintro x _ s1 ⟨⟨rfl, h⟩, ha1, -, -⟩
        simp only [if_true]
        have hl : s1.stream.rest.length + 1 ≤ s.stream.rest.length := by
          have := List.length_pos_iff.2 ht.ne_nil
          rw [h, hr]; simp only [List.length_append]; omega
        refine sim_mono (parseOps_sim henv hsrc hpv hps depth brace hK hend hu x _ _ ha1 h (by omega)) ?_
        rintro y z s2 ⟨h1, -, h2⟩
        exact ⟨h1, h2⟩
    refine sim_mono (sim_wp h1 (parseValueBody_ok (hok main) env s pairs depth brace true henv hsrc ha hps hne hm)) ?_
    rintro x y s' ⟨⟨h1, h2⟩, h3, h4, -⟩
    exact ⟨h1, h3, h4, h2⟩

omit [PanicOk] in
theorem parseValue_gt (fs : FS) : ∀ n, PvGt n (parseValue fs n)
  | 0 => by
    intro s pairs l c depth brace r hr hl
    rw [hr] at hl; simp at hl
  | n + 1 => by
    intro s pairs l c depth brace r hr hl
    unfold parseValue parseValueBody parseTerm
    simp only [bind, P.bind, peekP, Stream.peek, hr, List.head?_cons]
    have h : (isValidFieldChar '>' true || '>' == '@') = false := notNameStart (by decide)
    have h2 : isNumericChar '>' = false := by decide
    rw [if_neg (by decide), if_neg (by decide), if_neg (by decide), if_neg (by decide), if_neg (by decide),
      if_neg (by decide), if_neg (by decide), if_neg (by simp [h2]), if_neg (by rw [h]; decide)]
    rfl

theorem parseValue_sim (fs : FS) (main : Option Str × Str) : ∀ n, PvSim fs main n (parseValue fs n)
  | 0 => by
    intro env s pairs depth brace K txt rest' _ _ _ _ hm _ hr
    have : txt = [] := by
      have h : s.stream.rest.length = 0 := by omega
      rw [List.length_eq_zero_iff, hr] at h
      exact (List.append_eq_nil_iff.1 h).1
    subst this
    exact ⟨fun t ht _ => absurd rfl ht.ne_nil, fun e he _ => absurd rfl he.ne_nil⟩
  | n + 1 => parseValueBody_sim (fun main => parseValue_ok fs main n) (parseValue_sim fs main n) (parseValue_gt fs n)

/-! ## Entry points -/

omit [PanicOk] in
theorem FS.filesExcl_le (fs : FS) (stack : List Str) : fs.filesExcl stack ≤ fs.nodes.length :=
  List.length_filter_le _ _

theorem fromStrFuel_sim (fs : FS) (n : Nat) (contents : Str) (rt : Rt)
    (hn : contents.length + fs.size ≤ n) {d : List Field} (hd : SpDoc d contents) {K : Nat}
    (hK : fs.nodes.length ≤ K) :
    sim (parseObjStream (parseValue fs n)) (evalDoc fs none [] (loadN fs K) d)
      (PState.init none contents rt) (fun x y _ => x = y) := by
  refine sim_mono (parseObjStream_sim (env := .text contents) (envOk_text fs contents)
    (.inl ⟨rfl, rfl⟩) (parseValue_sim fs (none, contents) n) (K := K)
    ((fs.filesExcl_le _).trans hK) (at_init none contents rt none) hd ?_) ?_
  · show contents.length + _ ≤ _
    have := fs.sizeExcl_le (Env.text contents).stack
    omega
  · rintro x y s' ⟨h, -⟩
    exact h

theorem fromFileFuel_sim (fs : FS) (n : Nat) (path contents full : Str) (rt : Rt)
    (hres : fs.resolve path = some full)
    (hu : fs.utf8 full = true ∨ PanicOk.allowed) (hn : contents.length + fs.size ≤ n)
    {d : List Field} (hd : SpDoc d contents) {K : Nat} (hK : fs.nodes.length ≤ K) :
    sim (parseObjStream (parseValue fs n)) (evalDoc fs (some path) [full] (loadN fs K) d)
      (PState.init (some path) contents rt) (fun x y _ => x = y) := by
  refine sim_mono (parseObjStream_sim (env := .main path contents full) ?_
    (.inl ⟨rfl, rfl⟩) (parseValue_sim fs (some path, contents) n) (K := K)
    ((fs.filesExcl_le _).trans hK) (at_init (some path) contents rt _) hd ?_) ?_
  · exact ⟨full, hres, hu, rfl, by simp [Env.main]⟩
  · show contents.length + _ ≤ _
    have := fs.sizeExcl_le (Env.main path contents full).stack
    omega
  · rintro x y s' ⟨h, -⟩
    exact h

end
end Over
