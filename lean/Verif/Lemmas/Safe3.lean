import Verif.Lemmas.Safe2

/-!
# Safety of objects, arrays and tuples
-/

set_option linter.unusedSectionVars false

namespace Over

variable [Unicode]

theorem LastGap.of_append {eof : Bool} {g h : Str} (hg : Gap g) (hh : LastGap eof h) :
    LastGap eof (g ++ h) := by
  cases eof
  · exact Gap.append hg hh
  · exact EndGap.of_append hg hh

theorem SpFields.gap {eof : Bool} {g r : Str} {fds : List Field} (hg : Gap g) (h : SpFields eof fds r) :
    SpFields eof fds (g ++ r) := by
  cases h with
  | nil h => exact .nil (h.of_append hg)
  | cons h1 h2 h3 h4 h5 h6 =>
    rw [← List.append_assoc]
    exact .cons (hg.append h1) h2 h3 h4 h5 h6

theorem SpItems.gap {eof : Bool} {g r : Str} {es : List Expr} (hg : Gap g) (h : SpItems eof es r) :
    SpItems eof es (g ++ r) := by
  cases h with
  | nil h => exact .nil (h.of_append hg)
  | cons h1 h4 h5 h6 =>
    rw [← List.append_assoc]
    exact .cons (hg.append h1) h4 h5 h6

theorem lcr_snoc {t u c : Ty} {f : Bool} {l : List Ty} (h : LeastCommonRefinement t l)
    (hm : Ty.mostSpecific t u = some (c, f)) : LeastCommonRefinement c (l ++ [u]) := by
  refine lcr_append h ⟨?_, ?_⟩ hm
  · intro v hv; simp only [List.mem_singleton] at hv; subst hv; exact .refl _
  · intro d hd; exact hd u (by simp)

section
variable [PanicOk]
variable {fs : FS} {main : Option Str × Str} {env : Env} {n : Nat} {pv : PV}

/-! ## Fields -/

theorem checkDuplicate_spec (hsrc : Src fs main env.file env.full) {s : PState} (ha : At env s)
    {field : Str} {ft : FieldType} {pairs : List Pair} {parent : Option Obj} {l c : Nat}
    (hp : WordAt env.full field l c) (hpp : ft = .parent → field = ['^']) :
    wp (checkDuplicate field ft pairs parent l c) s
      (fun _ s' => s' = s ∧ (ft = .regular → field ∉ pairs.map Pair.field)) (ErrOk fs main) := by
  simp only [wp, checkDuplicate]
  cases ft with
  | global =>
    by_cases h : (StrMap.get s.globals field).isSome = true
    · simp only [h, if_true]; exact err_of_kind hsrc ha (.duplicateGlobal hp)
    · simp [h]
  | parent =>
    by_cases h : parent.isSome = true
    · simp only [h, if_true]; exact err_of_kind hsrc ha (.duplicateField (hpp rfl ▸ hp))
    · simp [h]
  | regular =>
    by_cases h : pairs.any (fun p => p.field == field) = true
    · simp only [h, if_true]; exact err_of_kind hsrc ha (.duplicateField hp)
    · simp only [h]
      refine ⟨rfl, fun _ hm => h ?_⟩
      rw [List.any_eq_true]
      obtain ⟨p, h1, h2⟩ := List.mem_map.1 hm
      exact ⟨p, h1, by simpa using h2⟩

/-- A parent as the parser produces it. -/
def GoodParent (parent : Option Obj) : Prop := ∀ o, parent = some o → GoodObj o

theorem storeField_spec (hsrc : Src fs main env.file env.full) {s : PState} (ha : At env s)
    {field : Str} {ft : FieldType} {v : Value} {pairs : List Pair} {parent : Option Obj} {l c : Nat}
    (hp : OperandAt env.full l c) (hg : Good v) (hps : GoodPairs pairs) (hpar : GoodParent parent)
    (hn : ft = .regular → FieldName field ∧ field ∉ pairs.map Pair.field) :
    wp (storeField field ft v pairs parent l c) s
      (fun x s' => At env s' ∧ s'.stream = s.stream ∧ GoodPairs x.1 ∧ GoodParent x.2)
      (ErrOk fs main) := by
  unfold storeField
  cases ft with
  | global =>
    refine ⟨⟨ha.file, ha.here, ha.opened, ?_, ha.cache⟩, rfl, hps, hpar⟩
    intro e he
    rcases List.mem_cons.1 he with rfl | he
    · exact hg
    · exact ha.globals e he
  | parent =>
    simp only
    cases v with
    | obj o => exact ⟨ha, rfl, hps, fun q hq => by cases hq; exact (good_obj _).1 hg⟩
    | _ => exact err_of_kind hsrc ha (.overError hp)
  | regular =>
    obtain ⟨h1, h2⟩ := hn rfl
    refine ⟨ha, rfl, ⟨?_, ?_⟩, hpar⟩
    · intro p hp
      rcases List.mem_append.1 hp with hp | hp
      · exact hps.1 p hp
      · simp only [List.mem_singleton] at hp; subst hp; exact ⟨h1, hg⟩
    · rw [List.map_append, List.nodup_append]
      refine ⟨hps.2, by simp, ?_⟩
      intro a ha b hb
      simp only [List.map_cons, List.map_nil, List.mem_singleton] at hb
      rintro rfl
      subst hb; exact h2 ha

/-- Result of one field: a definition was read and more follow, the closing brace was read, or the last
definition of the file was read. -/
def FieldText (more : Bool) (brace : Option Char) (r r' : Str) : Prop :=
  (more = false ∧ brace = some '}' ∧ r = '}' :: r') ∨
  ∃ nm tg g e tx g', r = nm ++ ':' :: (g ++ (tx ++ g' ++ r')) ∧ SpTarget tg nm ∧ Gap g ∧ SpExpr e tx ∧
    ExprEnd brace (g' ++ r') ∧
    ((more = true ∧ Gap g' ∧ FoundAt r') ∨ (more = false ∧ brace = none ∧ r' = [] ∧ EndGap g'))

theorem parseFieldValuePair_spec (henv : EnvOk fs env) (hsrc : Src fs main env.file env.full)
    (hpv : PvOk fs main n pv) {pairs : List Pair} {parent : Option Obj} (hps : GoodPairs pairs)
    (hpar : GoodParent parent) (depth : Nat) {brace : Option Char} (hb : brace = none ∨ brace = some '}')
    {s : PState} (ha : At env s) (hf : FoundAt s.stream.rest)
    (hm : s.stream.rest.length + fs.sizeExcl env.stack ≤ n) :
    wp (parseFieldValuePair pv pairs parent depth brace) s (fun x s' => At env s' ∧ GoodPairs x.2.1 ∧
      GoodParent x.2.2 ∧ FieldText x.1 brace s.stream.rest s'.stream.rest) (ErrOk fs main) := by
  unfold parseFieldValuePair
  obtain ⟨ch, r, hr, h1, h2⟩ := hf
  rw [wp_bind, wp_peekP, hr]
  simp only [List.head?_cons]
  have hh := ha.here
  rw [hr] at hh
  by_cases hc : ch = '}' ∧ brace.isSome = true
  · simp only [hc, and_self, if_true]
    rw [wp_bind, wp_nextP_cons hr]
    obtain ⟨rfl, hs⟩ := hc
    refine ⟨ha.move hh.adv, hps, hpar, .inl ⟨rfl, ?_, rfl⟩⟩
    rcases hb with rfl | rfl
    · simp at hs
    · rfl
  rw [if_neg hc]
  by_cases hd : isEndDelimiter ch = true
  · simp only [hd, if_true]
    exact err_of_kind hsrc ha (.invalidClosingBracket hh.charAt)
  simp only [hd]
  rw [if_neg (by simp), wp_bind, wp_getPos, wp_bind]
  apply wp_liftLex
  refine Lex.post_mono (lexField_spec env.full _ _ ha.here (by simp [hr])) ?_
    (fun kd hk => err_of_kind hsrc ha hk)
  rintro ⟨field, ft⟩ rest1 p1 ⟨ntx, hne, e1, e2, e3, e4, e0⟩
  simp only at e3 e4 e0 ⊢
  have hh1 := ha.here
  rw [e1] at hh1
  have ha1 := ha.move (e2 ▸ hh1.advs)
  rw [wp_bind]
  have hw : WordAt env.full field s.stream.pos.line s.stream.pos.col := by
    obtain ⟨z, rfl⟩ := e0
    rw [List.append_assoc] at hh1
    exact hh1.wordAt
  refine wp_mono (checkDuplicate_spec hsrc ha1 hw e4) ?_ (fun _ h => h)
  rintro _ _ ⟨rfl, hdup⟩
  rw [wp_bind]
  refine wp_mono (findCharP_spec ha1) ?_ (fun _ h => h)
  rintro b s2 ⟨ha2, hb1, hb2⟩
  cases b with
  | false =>
    simp only [Bool.not_false, if_true]
    exact err_end hsrc ha2 (hb2 rfl).1
  | true =>
    obtain ⟨g, e5, hg, hf2⟩ := hb1 rfl
    simp only at e5
    simp only [Bool.not_true, Bool.false_eq_true, if_false]
    rw [wp_bind, wp_getPos, wp_bind]
    have hl : s2.stream.rest.length ≤ s.stream.rest.length := by
      rw [e1, e5]; simp only [List.length_append]; omega
    obtain ⟨c2, r2, hr2, -, -⟩ := hf2
    refine wp_mono (hpv env s2 pairs depth brace true henv hsrc ha2 hps (by simp [hr2]) (by omega)) ?_
      (fun _ h => h)
    rintro v s3 ⟨ha3, hgv, tx, e6, ⟨e, hex⟩, hend⟩
    rcases e3 with ⟨nm, rfl, htg⟩ | e3
    swap
    · exfalso
      rw [e3] at e5
      have := congrArg List.length e5
      rw [hr2] at this
      simp at this
    rw [wp_bind]
    refine wp_mono (storeField_spec hsrc ha3 (ha2.operandAtExpr e6 hex) hgv hps hpar ?_) ?_ (fun _ h => h)
    · rintro rfl
      refine ⟨?_, hdup rfl⟩
      simp only [targetOf] at htg
      cases htg; assumption
    rintro ⟨pairs', parent'⟩ s4 ⟨ha4, hst, hps', hpar'⟩
    simp only at hps' hpar' ⊢
    rw [wp_bind]
    refine wp_mono (findCharP_spec ha4) ?_ (fun _ h => h)
    rintro b s5 ⟨ha5, hb3, hb4⟩
    rw [hst] at hb3 hb4
    have hfull : ∀ g' r', s3.stream.rest = g' ++ r' →
        ch :: r = nm ++ ':' :: (g ++ (tx ++ g' ++ r')) := by
      intro g' r' h
      rw [← hr, e1, e5, e6, h]; simp
    cases b with
    | false =>
      simp only [Bool.not_false, if_true]
      obtain ⟨e7, e8⟩ := hb4 rfl
      cases brace with
      | some _ => exact err_end hsrc ha5 e7
      | none =>
        refine ⟨ha5, hps', hpar', .inr ⟨nm, _, g, e, tx, s3.stream.rest, ?_, htg, hg, hex, ?_,
          .inr ⟨rfl, rfl, e7, e8⟩⟩⟩
        · exact hfull _ _ (by rw [e7]; simp)
        · rw [e7]; simpa using hend
    | true =>
      simp only [Bool.not_true, Bool.false_eq_true, if_false]
      obtain ⟨g', e7, hg', hf5⟩ := hb3 rfl
      exact ⟨ha5, hps', hpar', .inr ⟨nm, _, g, e, tx, g', hfull _ _ e7, htg, hg, hex, e7 ▸ hend,
        .inl ⟨rfl, hg', hf5⟩⟩⟩

/-- The text of the definitions up to the closing brace or the end of the file. -/
def FieldsText (brace : Option Char) (r r' : Str) : Prop :=
  match brace with
  | some _ => ∃ fds txt, r = txt ++ '}' :: r' ∧ SpFields false fds txt
  | none => r' = [] ∧ ∃ fds, SpFields true fds r

theorem fieldsLoop_spec (henv : EnvOk fs env) (hsrc : Src fs main env.file env.full)
    (hpv : PvOk fs main n pv) (depth : Nat) {brace : Option Char}
    (hb : brace = none ∨ brace = some '}') (k : Nat) : ∀ (pairs : List Pair) (parent : Option Obj)
    (s : PState), GoodPairs pairs → GoodParent parent → At env s → FoundAt s.stream.rest →
    s.stream.rest.length + fs.sizeExcl env.stack ≤ n → s.stream.rest.length + 1 ≤ k →
    wp (fieldsLoop pv depth brace k pairs parent) s (fun x s' => At env s' ∧ GoodPairs x.1 ∧
      GoodParent x.2 ∧ FieldsText brace s.stream.rest s'.stream.rest) (ErrOk fs main) := by
  induction k with
  | zero => intro _ _ _ _ _ _ _ _ h; omega
  | succ k ih =>
    intro pairs parent s hps hpar ha hf hm hk
    unfold fieldsLoop
    rw [wp_bind]
    refine wp_mono (parseFieldValuePair_spec henv hsrc hpv hps hpar depth hb ha hf hm) ?_ (fun _ h => h)
    rintro ⟨more, pairs', parent'⟩ s1 ⟨ha1, hps1, hpar1, ht⟩
    simp only at hps1 hpar1 ht ⊢
    cases more with
    | false =>
      refine ⟨ha1, hps1, hpar1, ?_⟩
      rcases ht with ⟨-, rfl, e⟩ | ⟨nm, tg, g, e, tx, g', e1, h1, h2, h3, h4, h5⟩
      · exact ⟨[], [], by simpa using e, .nil (eof := false) (g := []) Gap.nil⟩
      · rcases h5 with ⟨h5, -⟩ | ⟨-, rfl, h6, h7⟩
        · cases h5
        · refine ⟨h6, [.mk tg e], ?_⟩
          have := SpFields.cons (g := []) (r := g') .nil h1 h2 h3 (.nil (eof := true) h7) (.inl rfl)
          rw [e1, h6]; simpa using this
    | true =>
      rw [if_pos rfl]
      rcases ht with ⟨h, -⟩ | ⟨nm, tg, g, e, tx, g', e1, h1, h2, h3, h4, h5⟩
      · cases h
      rcases h5 with ⟨-, h6, h7⟩ | ⟨h5, -⟩
      swap
      · cases h5
      have hl : s1.stream.rest.length + 1 ≤ s.stream.rest.length := by
        rw [e1]; simp only [List.length_append, List.length_cons]; omega
      refine wp_mono (ih pairs' parent' s1 hps1 hpar1 ha1 h7 (by omega) (by omega)) ?_ (fun _ h => h)
      rintro ⟨ps, pr⟩ s' ⟨b1, b2, b3, b4⟩
      refine ⟨b1, b2, b3, ?_⟩
      rcases hb with rfl | rfl
      · obtain ⟨c1, fds, c2⟩ := b4
        refine ⟨c1, .mk tg e :: fds, ?_⟩
        have := SpFields.cons (g := []) .nil h1 h2 h3 (c2.gap h6)
          ((c2.gap h6).sep (r' := []) (by simpa using h4))
        rw [e1]; simpa using this
      · obtain ⟨fds, txt, c1, c2⟩ := b4
        refine ⟨.mk tg e :: fds, nm ++ ':' :: (g ++ (tx ++ (g' ++ txt))), ?_, ?_⟩
        · rw [e1, c1]; simp
        · have := SpFields.cons (g := []) .nil h1 h2 h3 (c2.gap h6)
            ((c2.gap h6).sep (r' := '}' :: s'.stream.rest) (by rw [c1] at h4; simpa using h4))
          simpa using this

omit [PanicOk] in
theorem goodPairs_nil : GoodPairs [] := ⟨by simp, by simp⟩
omit [PanicOk] in
theorem goodParent_none : GoodParent none := by intro o h; cases h

omit [PanicOk] in
theorem At.bump {s : PState} (ha : At env s) {rt : Rt} : At env { s with rt := rt } :=
  ⟨ha.file, ha.here, ha.opened, ha.globals, ha.cache⟩

theorem parseObjStream_spec (henv : EnvOk fs env) (hsrc : Src fs main env.file env.full)
    (hpv : PvOk fs main n pv) {s : PState} (ha : At env s)
    (hm : s.stream.rest.length + fs.sizeExcl env.stack ≤ n) :
    wp (parseObjStream pv) s (fun o s' => At env s' ∧ GoodObj o ∧ s'.stream.rest = [] ∧
      ∃ d, SpDoc d s.stream.rest) (ErrOk fs main) := by
  unfold parseObjStream
  rw [wp_bind]
  refine wp_mono (findCharP_spec ha) ?_ (fun _ h => h)
  rintro b s1 ⟨ha1, hb1, hb2⟩
  cases b with
  | false =>
    simp only [Bool.not_false, if_true]
    rw [wp_bind, wp_genId]
    obtain ⟨e1, e2⟩ := hb2 rfl
    exact ⟨ha1.bump, goodObj_mk.2 ⟨goodPairs_nil, goodParent_none⟩, e1, [], .nil (eof := true) e2⟩
  | true =>
    simp only [Bool.not_true, Bool.false_eq_true, if_false]
    obtain ⟨g, e1, hg, hf⟩ := hb1 rfl
    have hl : s1.stream.rest.length ≤ s.stream.rest.length := by
      rw [e1]; simp only [List.length_append]; omega
    rw [wp_bind, wp_withBound]
    refine wp_mono (fieldsLoop_spec henv hsrc hpv 1 (.inl rfl) _ [] none s1 goodPairs_nil goodParent_none
      ha1 hf (by omega) (Nat.le_refl _)) ?_ (fun _ h => h)
    rintro ⟨ps, pr⟩ s2 ⟨b1, b2, b3, b4, fds, b5⟩
    simp only
    rw [wp_bind, wp_genId]
    refine ⟨b1.bump, goodObj_mk.2 ⟨b2, b3⟩, b4, fds, ?_⟩
    rw [e1]; exact b5.gap hg

theorem checkDepth_spec (hsrc : Src fs main env.file env.full) {s : PState} (ha : At env s) {d : Nat}
    {ch : Char} {r : Str} (hr : s.stream.rest = ch :: r) (hc : ch ∈ c!"{[(<" := by decide) :
    wp (checkDepth d) s (fun _ s' => s' = s ∧ d ≤ maxDepth) (ErrOk fs main) := by
  unfold checkDepth
  by_cases h : d > maxDepth
  · simp only [h, if_true]
    have hh := ha.here
    rw [hr] at hh
    exact err_of_kind hsrc ha (.maxDepth hc hh.charAt)
  · simp only [h, if_false]
    exact ⟨rfl, by omega⟩

theorem parseObj_spec (henv : EnvOk fs env) (hsrc : Src fs main env.file env.full)
    (hpv : PvOk fs main n pv) (depth : Nat) {s : PState} (ha : At env s) {r : Str}
    (hr : s.stream.rest = '{' :: r) (hm : s.stream.rest.length + fs.sizeExcl env.stack ≤ n + 1) :
    wp (parseObj pv depth) s (fun v s' => At env s' ∧ Good v ∧
      ∃ t txt, s.stream.rest = txt ++ s'.stream.rest ∧ SpTerm t txt) (ErrOk fs main) := by
  unfold parseObj
  rw [wp_bind]
  refine wp_mono (checkDepth_spec hsrc ha hr) ?_ (fun _ h => h)
  rintro _ s0 ⟨hs0, -⟩
  obtain rfl := hs0.symm
  rw [wp_bind, wp_expectP hr]
  have hh := ha.here
  rw [hr] at hh
  have ha0 := ha.move hh.adv
  rw [wp_bind]
  refine wp_mono (findCharP_spec ha0) ?_ (fun _ h => h)
  rintro b s1 ⟨ha1, hb1, hb2⟩
  simp only at hb1 hb2
  cases b with
  | false =>
    simp only [Bool.not_false, if_true]
    exact err_end hsrc ha1 (hb2 rfl).1
  | true =>
    simp only [Bool.not_true, Bool.false_eq_true, if_false]
    obtain ⟨g, e1, hg, hf⟩ := hb1 rfl
    have hl : s1.stream.rest.length + 1 ≤ s.stream.rest.length := by
      rw [hr, e1]; simp only [List.length_append, List.length_cons]; omega
    rw [wp_bind, wp_withBound]
    refine wp_mono (fieldsLoop_spec henv hsrc hpv depth (.inr rfl) _ [] none s1 goodPairs_nil
      goodParent_none ha1 hf (by omega) (Nat.le_refl _)) ?_ (fun _ h => h)
    rintro ⟨ps, pr⟩ s2 ⟨b1, b2, b3, fds, txt, b4, b5⟩
    simp only
    rw [wp_bind, wp_genId]
    refine ⟨b1.bump, (good_obj _).2 (goodObj_mk.2 ⟨b2, b3⟩), .obj fds, _, ?_, .obj (b5.gap hg)⟩
    rw [hr, e1, b4]; simp

/-! ## Arrays and tuples -/

theorem arrStep_spec (hsrc : Src fs main env.file env.full) {s : PState} (ha : At env s) {t : Ty}
    {f : Bool} (hf : f = t.hasAny) {l : List Ty} (hl : LeastCommonRefinement t l) {v : Value} {ln c : Nat}
    (hp : OperandAt env.full ln c) :
    wp (arrStep t f v ln c) s (fun x s' => s' = s ∧ x.2 = x.1.hasAny ∧
      LeastCommonRefinement x.1 (l ++ [v.getType])) (ErrOk fs main) := by
  unfold arrStep
  rw [arrTypeStep_eq t f _ hf]
  have hs := Ty.mostSpecific_spec t v.getType
  cases hm : Ty.mostSpecific t v.getType with
  | none => exact err_of_kind hsrc ha (.expectedType hp)
  | some x =>
    rw [hm] at hs
    obtain ⟨u, g⟩ := x
    exact ⟨rfl, hs.2.2.2, lcr_snoc hl hm⟩

/-- The elements collected so far. -/
structure VecOk (vec : List Value) (t : Ty) (f : Bool) : Prop where
  good : ∀ v ∈ vec, Good v
  flag : f = t.hasAny
  lcr : LeastCommonRefinement t (vec.map Value.getType)

omit [PanicOk] in
theorem vecOk_nil : VecOk [] .any true :=
  ⟨by simp, rfl, by intro u hu; simp at hu, fun d _ => .any d⟩

/-- The text of the elements up to the closing bracket. -/
def ItemsText (close : Char) (r r' : Str) : Prop :=
  ∃ es txt, r = txt ++ close :: r' ∧ SpItems false es txt

omit [PanicOk] in
theorem itemsText_nil {close : Char} {g r r' : Str} (hg : Gap g) (h : r = g ++ close :: r') :
    ItemsText close r r' := ⟨[], g, h, .nil (eof := false) hg⟩

omit [PanicOk] in
theorem itemsText_cons {close : Char} {g tx r r1 r2 : Str} {e : Expr} (hg : Gap g) (he : SpExpr e tx)
    (h : r = g ++ (tx ++ r1)) (hend : ExprEnd (some close) r1) (ht : ItemsText close r1 r2) :
    ItemsText close r r2 := by
  obtain ⟨es, txt, rfl, h2⟩ := ht
  refine ⟨e :: es, g ++ (tx ++ txt), by rw [h]; simp, .cons hg he h2 (h2.sep hend)⟩

theorem arrLoop_spec (henv : EnvOk fs env) (hsrc : Src fs main env.file env.full)
    (hpv : PvOk fs main n pv) {pairs : List Pair} (hps : GoodPairs pairs) (depth : Nat) (k : Nat) :
    ∀ (vec : List Value) (t : Ty) (f : Bool) (s : PState), VecOk vec t f → At env s →
    s.stream.rest.length + fs.sizeExcl env.stack ≤ n → s.stream.rest.length + 1 ≤ k →
    wp (arrLoop pv pairs depth k vec t f) s (fun x s' => At env s' ∧ (∃ f, VecOk x.1 x.2 f) ∧
      ItemsText ']' s.stream.rest s'.stream.rest) (ErrOk fs main) := by
  induction k with
  | zero => intro _ _ _ _ _ _ _ h; omega
  | succ k ih =>
    intro vec t f s hv ha hm hk
    unfold arrLoop
    rw [wp_bind]
    refine wp_mono (findCharP_spec ha) ?_ (fun _ h => h)
    rintro b s1 ⟨ha1, hb1, hb2⟩
    cases b with
    | false => simp only [Bool.not_false, if_true]; exact err_end hsrc ha1 (hb2 rfl).1
    | true =>
      simp only [Bool.not_true, Bool.false_eq_true, if_false]
      obtain ⟨g, e1, hg, ch, r, hr, -, -⟩ := hb1 rfl
      have hl : s1.stream.rest.length ≤ s.stream.rest.length := by
        rw [e1]; simp only [List.length_append]; omega
      rw [wp_bind, wp_peekP, hr]
      simp only [List.head?_cons]
      have hh := ha1.here
      rw [hr] at hh
      by_cases hc : ch = ']'
      · subst hc
        rw [if_pos rfl, wp_bind, wp_nextP_cons hr]
        exact ⟨ha1.move hh.adv, ⟨f, hv⟩, itemsText_nil hg (by rw [e1, hr])⟩
      rw [if_neg hc]
      by_cases hd : isEndDelimiter ch = true
      · rw [if_pos hd]
        exact err_of_kind hsrc ha1 (.invalidClosingBracket hh.charAt)
      rw [if_neg hd, wp_bind, wp_getPos, wp_bind]
      refine wp_mono (hpv env s1 pairs depth (some ']') true henv hsrc ha1 hps (by simp [hr]) (by omega))
        ?_ (fun _ h => h)
      rintro v s2 ⟨ha2, hgv, tx, e2, ⟨e, hex⟩, hend⟩
      rw [wp_bind]
      refine wp_mono (arrStep_spec hsrc ha2 hv.flag hv.lcr (ha1.operandAtExpr e2 hex)) ?_ (fun _ h => h)
      rintro ⟨t', f'⟩ _ ⟨rfl, h1, h2⟩
      simp only at h1 h2 ⊢
      rename_i s2
      have hl2 : s2.stream.rest.length + 1 ≤ s1.stream.rest.length := by
        have := List.length_pos_iff.2 hex.ne_nil
        rw [e2]; simp only [List.length_append]; omega
      refine wp_mono (ih _ _ _ s2 ⟨?_, h1, by simpa using h2⟩ ha2 (by omega) (by omega)) ?_ (fun _ h => h)
      · intro w hw
        rcases List.mem_append.1 hw with hw | hw
        · exact hv.good w hw
        · simp only [List.mem_singleton] at hw; subst hw; exact hgv
      · rintro x s' ⟨b1, b2, b3⟩
        exact ⟨b1, b2, itemsText_cons hg hex (by rw [e1, e2]) hend b3⟩

theorem parseArr_spec (henv : EnvOk fs env) (hsrc : Src fs main env.file env.full)
    (hpv : PvOk fs main n pv) {pairs : List Pair} (hps : GoodPairs pairs) (depth : Nat) {s : PState}
    (ha : At env s) {r : Str} (hr : s.stream.rest = '[' :: r)
    (hm : s.stream.rest.length + fs.sizeExcl env.stack ≤ n + 1) :
    wp (parseArr pv pairs depth) s (fun v s' => At env s' ∧ Good v ∧
      ∃ t txt, s.stream.rest = txt ++ s'.stream.rest ∧ SpTerm t txt) (ErrOk fs main) := by
  unfold parseArr
  rw [wp_bind]
  refine wp_mono (checkDepth_spec hsrc ha hr) ?_ (fun _ h => h)
  rintro _ s0 ⟨hs0, -⟩
  obtain rfl := hs0.symm
  rw [wp_bind, wp_expectP hr]
  have hh := ha.here
  rw [hr] at hh
  have ha0 := ha.move hh.adv
  rw [wp_bind, wp_withBound]
  have hl : r.length + 1 = s.stream.rest.length := by rw [hr]; rfl
  refine wp_mono (arrLoop_spec henv hsrc hpv hps depth _ [] .any true _ vecOk_nil ha0
    (by simp only; omega) (Nat.le_refl _)) ?_ (fun _ h => h)
  rintro ⟨vec, t⟩ s1 ⟨b1, ⟨f, b2⟩, es, txt, b3, b4⟩
  simp only at b2 b3 ⊢
  rw [wp_bind, wp_genId]
  refine ⟨b1.bump, good_arr.2 ⟨b2.good, b2.lcr⟩, .arr es, _, ?_, .arr b4⟩
  rw [hr, b3]; simp

theorem tupLoop_spec (henv : EnvOk fs env) (hsrc : Src fs main env.file env.full)
    (hpv : PvOk fs main n pv) {pairs : List Pair} (hps : GoodPairs pairs) (depth : Nat) (k : Nat) :
    ∀ (vec : List Value) (s : PState), (∀ v ∈ vec, Good v) → At env s →
    s.stream.rest.length + fs.sizeExcl env.stack ≤ n → s.stream.rest.length + 1 ≤ k →
    wp (tupLoop pv pairs depth k vec) s (fun x s' => At env s' ∧ (∀ v ∈ x, Good v) ∧
      ItemsText ')' s.stream.rest s'.stream.rest) (ErrOk fs main) := by
  induction k with
  | zero => intro _ _ _ _ _ h; omega
  | succ k ih =>
    intro vec s hv ha hm hk
    unfold tupLoop
    rw [wp_bind]
    refine wp_mono (findCharP_spec ha) ?_ (fun _ h => h)
    rintro b s1 ⟨ha1, hb1, hb2⟩
    cases b with
    | false => simp only [Bool.not_false, if_true]; exact err_end hsrc ha1 (hb2 rfl).1
    | true =>
      simp only [Bool.not_true, Bool.false_eq_true, if_false]
      obtain ⟨g, e1, hg, ch, r, hr, -, -⟩ := hb1 rfl
      have hl : s1.stream.rest.length ≤ s.stream.rest.length := by
        rw [e1]; simp only [List.length_append]; omega
      rw [wp_bind, wp_peekP, hr]
      simp only [List.head?_cons]
      have hh := ha1.here
      rw [hr] at hh
      by_cases hc : ch = ')'
      · subst hc
        rw [if_pos rfl, wp_bind, wp_nextP_cons hr]
        exact ⟨ha1.move hh.adv, hv, itemsText_nil hg (by rw [e1, hr])⟩
      rw [if_neg hc]
      by_cases hd : isEndDelimiter ch = true
      · rw [if_pos hd]
        exact err_of_kind hsrc ha1 (.invalidClosingBracket hh.charAt)
      rw [if_neg hd, wp_bind, wp_getPos, wp_bind]
      refine wp_mono (hpv env s1 pairs depth (some ')') true henv hsrc ha1 hps (by simp [hr]) (by omega))
        ?_ (fun _ h => h)
      rintro v s2 ⟨ha2, hgv, tx, e2, ⟨e, hex⟩, hend⟩
      have hl2 : s2.stream.rest.length + 1 ≤ s1.stream.rest.length := by
        have := List.length_pos_iff.2 hex.ne_nil
        rw [e2]; simp only [List.length_append]; omega
      refine wp_mono (ih _ s2 ?_ ha2 (by omega) (by omega)) ?_ (fun _ h => h)
      · intro w hw
        rcases List.mem_append.1 hw with hw | hw
        · exact hv w hw
        · simp only [List.mem_singleton] at hw; subst hw; exact hgv
      · rintro x s' ⟨b1, b2, b3⟩
        exact ⟨b1, b2, itemsText_cons hg hex (by rw [e1, e2]) hend b3⟩

theorem parseTup_spec (henv : EnvOk fs env) (hsrc : Src fs main env.file env.full)
    (hpv : PvOk fs main n pv) {pairs : List Pair} (hps : GoodPairs pairs) (depth : Nat) {s : PState}
    (ha : At env s) {r : Str} (hr : s.stream.rest = '(' :: r)
    (hm : s.stream.rest.length + fs.sizeExcl env.stack ≤ n + 1) :
    wp (parseTup pv pairs depth) s (fun v s' => At env s' ∧ Good v ∧
      ∃ t txt, s.stream.rest = txt ++ s'.stream.rest ∧ SpTerm t txt) (ErrOk fs main) := by
  unfold parseTup
  rw [wp_bind]
  refine wp_mono (checkDepth_spec hsrc ha hr) ?_ (fun _ h => h)
  rintro _ s0 ⟨hs0, -⟩
  obtain rfl := hs0.symm
  rw [wp_bind, wp_expectP hr]
  have hh := ha.here
  rw [hr] at hh
  have ha0 := ha.move hh.adv
  rw [wp_bind, wp_withBound]
  have hl : r.length + 1 = s.stream.rest.length := by rw [hr]; rfl
  refine wp_mono (tupLoop_spec henv hsrc hpv hps depth _ [] _ (by simp) ha0
    (by simp only; omega) (Nat.le_refl _)) ?_ (fun _ h => h)
  rintro vec s1 ⟨b1, b2, es, txt, b3, b4⟩
  simp only at b3 ⊢
  rw [wp_bind, wp_genId]
  refine ⟨b1.bump, good_tup.2 ⟨b2, rfl⟩, .tup es, _, ?_, .tup b4⟩
  rw [hr, b3]; simp

/-! ## Files of values -/

theorem arrFileLoop_spec (henv : EnvOk fs env) (hsrc : Src fs main env.file env.full)
    (hpv : PvOk fs main n pv) (k : Nat) :
    ∀ (vec : List Value) (t : Ty) (f : Bool) (s : PState), VecOk vec t f → At env s →
    s.stream.rest.length + fs.sizeExcl env.stack ≤ n → s.stream.rest.length + 1 ≤ k →
    wp (arrFileLoop pv k vec t f) s (fun x s' => At env s' ∧ (∃ f, VecOk x.1 x.2 f) ∧
      s'.stream.rest = [] ∧ ∃ es, SpItems true es s.stream.rest) (ErrOk fs main) := by
  induction k with
  | zero => intro _ _ _ _ _ _ _ h; omega
  | succ k ih =>
    intro vec t f s hv ha hm hk
    unfold arrFileLoop
    rw [wp_bind]
    refine wp_mono (findCharP_spec ha) ?_ (fun _ h => h)
    rintro b s1 ⟨ha1, hb1, hb2⟩
    cases b with
    | false =>
      simp only [Bool.not_false, if_true]
      exact ⟨ha1, ⟨f, hv⟩, (hb2 rfl).1, [], .nil (eof := true) (hb2 rfl).2⟩
    | true =>
      simp only [Bool.not_true, Bool.false_eq_true, if_false]
      obtain ⟨g, e1, hg, ch, r, hr, -, -⟩ := hb1 rfl
      have hl : s1.stream.rest.length ≤ s.stream.rest.length := by
        rw [e1]; simp only [List.length_append]; omega
      rw [wp_bind, wp_getPos, wp_bind]
      refine wp_mono (hpv env s1 [] 1 none true henv hsrc ha1 goodPairs_nil (by simp [hr]) (by omega))
        ?_ (fun _ h => h)
      rintro v s2 ⟨ha2, hgv, tx, e2, ⟨e, hex⟩, hend⟩
      rw [wp_bind]
      refine wp_mono (arrStep_spec hsrc ha2 hv.flag hv.lcr (ha1.operandAtExpr e2 hex)) ?_ (fun _ h => h)
      rintro ⟨t', f'⟩ _ ⟨rfl, h1, h2⟩
      simp only at h1 h2 ⊢
      rename_i s2
      have hl2 : s2.stream.rest.length + 1 ≤ s1.stream.rest.length := by
        have := List.length_pos_iff.2 hex.ne_nil
        rw [e2]; simp only [List.length_append]; omega
      refine wp_mono (ih _ _ _ s2 ⟨?_, h1, by simpa using h2⟩ ha2 (by omega) (by omega)) ?_ (fun _ h => h)
      · intro w hw
        rcases List.mem_append.1 hw with hw | hw
        · exact hv.good w hw
        · simp only [List.mem_singleton] at hw; subst hw; exact hgv
      · rintro x s' ⟨b1, b2, b3, es, b4⟩
        refine ⟨b1, b2, b3, e :: es, ?_⟩
        rw [e1, e2]
        exact .cons hg hex b4 (b4.sep (r' := []) (by simpa using hend))

theorem tupFileLoop_spec (henv : EnvOk fs env) (hsrc : Src fs main env.file env.full)
    (hpv : PvOk fs main n pv) (k : Nat) :
    ∀ (vec : List Value) (s : PState), (∀ v ∈ vec, Good v) → At env s →
    s.stream.rest.length + fs.sizeExcl env.stack ≤ n → s.stream.rest.length + 1 ≤ k →
    wp (tupFileLoop pv k vec) s (fun x s' => At env s' ∧ (∀ v ∈ x, Good v) ∧
      s'.stream.rest = [] ∧ ∃ es, SpItems true es s.stream.rest) (ErrOk fs main) := by
  induction k with
  | zero => intro _ _ _ _ _ h; omega
  | succ k ih =>
    intro vec s hv ha hm hk
    unfold tupFileLoop
    rw [wp_bind]
    refine wp_mono (findCharP_spec ha) ?_ (fun _ h => h)
    rintro b s1 ⟨ha1, hb1, hb2⟩
    cases b with
    | false =>
      simp only [Bool.not_false, if_true]
      exact ⟨ha1, hv, (hb2 rfl).1, [], .nil (eof := true) (hb2 rfl).2⟩
    | true =>
      simp only [Bool.not_true, Bool.false_eq_true, if_false]
      obtain ⟨g, e1, hg, ch, r, hr, -, -⟩ := hb1 rfl
      have hl : s1.stream.rest.length ≤ s.stream.rest.length := by
        rw [e1]; simp only [List.length_append]; omega
      rw [wp_bind, wp_getPos, wp_bind]
      refine wp_mono (hpv env s1 [] 1 none true henv hsrc ha1 goodPairs_nil (by simp [hr]) (by omega))
        ?_ (fun _ h => h)
      rintro v s2 ⟨ha2, hgv, tx, e2, ⟨e, hex⟩, hend⟩
      have hl2 : s2.stream.rest.length + 1 ≤ s1.stream.rest.length := by
        have := List.length_pos_iff.2 hex.ne_nil
        rw [e2]; simp only [List.length_append]; omega
      refine wp_mono (ih _ s2 ?_ ha2 (by omega) (by omega)) ?_ (fun _ h => h)
      · intro w hw
        rcases List.mem_append.1 hw with hw | hw
        · exact hv w hw
        · simp only [List.mem_singleton] at hw; subst hw; exact hgv
      · rintro x s' ⟨b1, b2, b3, es, b4⟩
        refine ⟨b1, b2, b3, e :: es, ?_⟩
        rw [e1, e2]
        exact .cons hg hex b4 (b4.sep (r' := []) (by simpa using hend))

/-- The text of a file that can be included as the given kind. -/
def FileText (kind : IncKind) (text : Str) : Prop :=
  match kind with
  | .obj => ∃ d, SpDoc d text
  | .str => True
  | .arr => ∃ es, SpItems true es text
  | .tup => ∃ es, SpItems true es text

theorem parseFileBody_spec (henv : EnvOk fs env) (hsrc : Src fs main env.file env.full)
    (hpv : PvOk fs main n pv) (kind : IncKind) (hk : kind ≠ .str) {s : PState} (ha : At env s)
    (hm : s.stream.rest.length + fs.sizeExcl env.stack ≤ n) :
    wp (parseFileBody pv kind) s (fun v s' => At env s' ∧ Good v ∧ FileText kind s.stream.rest)
      (ErrOk fs main) := by
  cases kind with
  | str => exact absurd rfl hk
  | obj =>
    unfold parseFileBody
    rw [wp_bind]
    refine wp_mono (parseObjStream_spec henv hsrc hpv ha hm) ?_ (fun _ h => h)
    rintro o s' ⟨h1, h2, h3, h4⟩
    exact ⟨h1, (good_obj o).2 h2, h4⟩
  | arr =>
    unfold parseFileBody
    rw [wp_bind, wp_withBound]
    refine wp_mono (arrFileLoop_spec henv hsrc hpv _ [] .any true s vecOk_nil ha hm (Nat.le_refl _)) ?_
      (fun _ h => h)
    rintro ⟨vec, t⟩ s1 ⟨b1, ⟨f, b2⟩, b3, b4⟩
    simp only
    rw [wp_bind, wp_genId]
    exact ⟨b1.bump, good_arr.2 ⟨b2.good, b2.lcr⟩, b4⟩
  | tup =>
    unfold parseFileBody
    rw [wp_bind, wp_withBound]
    refine wp_mono (tupFileLoop_spec henv hsrc hpv _ [] s (by simp) ha hm (Nat.le_refl _)) ?_
      (fun _ h => h)
    rintro vec s1 ⟨b1, b2, b3, b4⟩
    rw [wp_bind, wp_genId]
    exact ⟨b1.bump, good_tup.2 ⟨b2, rfl⟩, b4⟩

end
end Over
