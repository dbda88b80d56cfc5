import Verif.Lemmas.Acyclic
import Verif.Lemmas.CarryCache
import Verif.Lemmas.Shape
import Verif.Lemmas.TwoRuns
import Verif.Props.Access

/-!
# C36, C37, C38, C52: includes
-/

namespace Over

section
variable [Unicode]

/-! ## C52: more files do no harm -/

/-- From an evaluation with any sufficiently large bound to the run. -/
theorem fromStr_of_eval {fs : FS} {text : Str} {rt : Rt} {d : List Field} (hd : SpDoc d text) {K : Nat}
    (hK : fs.nodes.length ≤ K) :
    SameOutcome (fromStr fs text rt) (evalDoc fs none [] (loadN fs K) d ⟨[], [], rt⟩) :=
  sameOutcome_of_sim (@fromStrFuel_sim _ noPanic fs (fs.fuel text) text rt (by simp only [FS.fuel]; omega) d hd K hK)

theorem fromFile_of_eval {fs : FS} {path text F : Str} {rt : Rt} {d : List Field} (hF : Leads fs path F)
    (ht : fs.read path = .ok text) (hd : SpDoc d text) {K : Nat} (hK : fs.nodes.length ≤ K) :
    SameOutcome (fromFile fs path rt) (evalDoc fs (some path) [F] (loadN fs K) d ⟨[], [], rt⟩) := by
  rw [fromFile_eq ht]
  exact sameOutcome_of_sim (@fromFileFuel_sim _ noPanic fs (fs.fuel text) path text F rt hF.1
    (.inl hF.2.2) (by simp only [FS.fuel]; omega) d hd K hK)

omit [Unicode] in
theorem carries_grow [Unicode] {fs fs' : FS} (h : fs.Sub fs') {n m : Nat} (hnm : n ≤ m) (file : Option Str)
    (stack : List Str) (kind : IncKind) (p : Str) :
    Carries (evalInclude fs file stack (loadN fs n) kind p) (evalInclude fs' file stack (loadN fs' m) kind p) :=
  carries_include h (fun s k q G hG => carries_loadN h hnm s k q G hG) kind p

/-- C52: what can be read in a file system is read in the same way, with the same ids, when there are more files. -/
theorem c52_from_str_more_files (fs fs' : FS) (h : fs.Sub fs') (text : Str) (rt : Rt) (o : Obj) (s : PState)
    (hr : fromStr fs text rt = .ok o s) : ∃ s', fromStr fs' text rt = .ok o s' ∧ s'.rt = s.rt := by
  obtain ⟨d, st, h1, h2, h3⟩ := c45_from_str_accepts fs text rt o s hr
  have h4 := carries_evalDoc (carries_grow h (Nat.le_max_left (fs.nodes.length + 1) fs'.nodes.length) none []) d _ _ _ h2
  have h5 := fromStr_of_eval (rt := rt) h1 (Nat.le_max_right (fs.nodes.length + 1) fs'.nodes.length)
  rw [h4] at h5
  obtain ⟨s', h6, h7⟩ := h5.of_ok
  exact ⟨s', h6, h7.trans h3.symm⟩

/-- C52: the same for `Obj::from_file`. -/
theorem c52_from_file_more_files (fs fs' : FS) (h : fs.Sub fs') (path F : Str) (hF : Leads fs path F) (rt : Rt) (o : Obj)
    (s : PState) (hr : fromFile fs path rt = .ok o s) : ∃ s', fromFile fs' path rt = .ok o s' ∧ s'.rt = s.rt := by
  obtain ⟨text, d, st, h0, h1, h2, h3⟩ := c45_from_file_accepts fs path F rt o s hF.1 hr
  have h4 := carries_evalDoc (carries_grow h (Nat.le_max_left (fs.nodes.length + 1) fs'.nodes.length) (some path) [F]) d
    _ _ _ h2
  have h5 := fromFile_of_eval (rt := rt) (h.leads _ _ hF) ((h.read _ _ hF).trans h0) h1
    (Nat.le_max_right (fs.nodes.length + 1) fs'.nodes.length)
  rw [h4] at h5
  obtain ⟨s', h6, h7⟩ := h5.of_ok
  exact ⟨s', h6, h7.trans h3.symm⟩

/-- C52: in particular a file that is not needed does not matter. -/
theorem c52_removed_file (fs : FS) (F : Str) (text : Str) (rt : Rt) (o : Obj) (s : PState)
    (hr : fromStr (fs.without F) text rt = .ok o s) : ∃ s', fromStr fs text rt = .ok o s' ∧ s'.rt = s.rt :=
  c52_from_str_more_files _ fs (without_sub fs F) text rt o s hr

/-! ## The place in front of a first include -/

theorem finalCache_sub {fs fs' : FS} (h : fs.Sub fs') (hl : fs.nodes.length ≤ fs'.nodes.length) {rt : Rt} {t : Str}
    {C : StrMap Value} (hc : FinalCache fs rt t C) : FinalCache fs' rt t C := by
  obtain ⟨d, st, b, h1, h2, h3⟩ := hc
  exact ⟨d, st, b, h1, carries_evalFields (carries_grow h (Nat.succ_le_succ hl) none []) d [] none (Nat.le_refl _) _ _ _ h2,
    h3⟩

theorem FinalCache.leads {fs : FS} {rt : Rt} {t : Str} {C : StrMap Value} (hc : FinalCache fs rt t C) {k : Str} {v : Value}
    (h : StrMap.get C k = some v) : ∃ path, Leads fs path k := by
  obtain ⟨d, st, b, h1, h2, rfl⟩ := hc
  rcases (evalFields_cache h2).leads k v h with h | h
  · cases h
  · exact h

theorem readsAt_sub {fs fs' : FS} (h : fs.Sub fs') {rt : Rt} {A : List (Str × Str)} {u : Str} {p : Obj}
    (hr : ReadsAt fs rt A u p) : ReadsAt fs' rt A u p := by
  obtain ⟨h1, h2, o, s, h3, h4⟩ := hr
  obtain ⟨s', h5, -⟩ := c52_from_str_more_files fs fs' h _ _ _ _ h3
  exact ⟨h1, h2, o, s', h5, h4⟩

/-- The state of the evaluator at a place that can be read in a smaller file system. -/
theorem at_place_sub {fs fs' : FS} (h : fs.Sub fs') (hl : fs.nodes.length ≤ fs'.nodes.length) {rt : Rt}
    {A : List (Str × Str)} {u : Str} {p : Obj} (hr : ReadsAt fs rt A u p) :
    ∃ st : ESt, Continues fs' rt A u p st ∧ (∀ k v, StrMap.get st.cache k = some v → ∃ path, Leads fs path k) ∧
      (rt.Fine → st.rt.Fine) := by
  obtain ⟨st, -, hC, hc, -, hQ⟩ := at_place_cache (readsAt_sub h hr)
  obtain ⟨st0, -, hC0, -⟩ := at_place_cache hr
  refine ⟨st, hc, ?_, ?_⟩
  · intro k v hk
    rw [hC.unique (finalCache_sub h hl hC0)] at hk
    exact hC0.leads hk
  · intro hf
    exact hQ (fun st _ => st.rt.Fine) ⟨fun fds k ps par s b s' h1 h2 => fine_fields h1 h2, fun _ _ h => h⟩ hf

/-! ## C37 -/

/-- The value of an included file is remembered. -/
theorem included_cached {fs : FS} {rt : Rt} {A : List (Str × Str)} {u : Str} {p p1 : Obj}
    (h : ReadsAt fs rt A u p) {k : Option IncKind} {path b F : Str} (hb : StrBody path b) (hF : Leads fs path F) {y : Str}
    (hy : FieldName y) (hn : NotNamed p.pairs y) {v : Value}
    (h1 : ReadsAt fs rt A (u ++ c!"\n" ++ y ++ c!":" ++ includeText k b) p1) (hv : p1.pairs = p.pairs ++ [.mk y v])
    {t : Str} (ht : WellFormed t) {B : List (Str × Str)} {w : Str} {q : Obj} (hB : ReadsAt fs rt B w q)
    (heq : nest B w = nest A (u ++ c!"\n" ++ y ++ c!":" ++ includeText k b ++ c!"\n" ++ t)) {st : ESt}
    (hC : FinalCache fs rt (nest B w) st.cache) : StrMap.get st.cache F = some v := by
  obtain ⟨st0, -, -, hc0, hcc0, -⟩ := at_place_cache h
  obtain ⟨v', st1, hev, hp⟩ := denotes_eval hc0 hy hn (spIncl (k := k) hb) h1
  have hvv : v' = v := by
    rw [hv] at hp
    simp at hp
    exact hp.symm
  subst hvv
  obtain ⟨kk, st2, -, -, -, -, he⟩ := evalIncl fs none [] (theLoader fs) k path p.pairs (1 + A.length) st0
  rw [hev] at he
  by_cases hd : 1 + A.length + 1 > 64
  · rw [if_pos hd] at he; cases he
  rw [if_neg hd] at he
  obtain ⟨-, G, hG, -, hget⟩ := evalInclude_cache (loadN_cache fs _) he.symm
  cases hF.unique hG
  obtain ⟨dt, hdt⟩ := ht
  have hsp : SpDoc ([.mk (.field y) (inclExpr k path)] ++ dt) (y ++ ':' :: includeText k b ++ '\n' :: t) :=
    spDoc_append hdt _ _ (spOne (.field hy) (spIncl hb))
  have e1 : u ++ '\n' :: (y ++ ':' :: includeText k b ++ '\n' :: t) =
      u ++ c!"\n" ++ y ++ c!":" ++ includeText k b ++ c!"\n" ++ t := by simp
  have hone : evalFields fs none [] (theLoader fs) ([.mk (.field y) (inclExpr k path)] ++ dt) (1 + A.length) p.pairs p.parent
      st0 = evalFields fs none [] (theLoader fs) dt (1 + A.length) (p.pairs ++ [.mk y v']) p.parent st1 := by
    rw [evalFields_append, evalFields_one, if_neg (notNamed_mem hn), hev]
  cases hend : evalFields fs none [] (theLoader fs) dt (1 + A.length) (p.pairs ++ [.mk y v']) p.parent st1 with
  | error e =>
    have h2 := (hc0 _ _ hsp).1 e (by rw [hone]; exact hend)
    obtain ⟨-, -, o, s, h3, -⟩ := hB
    rw [e1, ← heq, h3] at h2
    exact h2.elim
  | ok x =>
    obtain ⟨bd, st3⟩ := x
    have h2 := hcc0 _ _ hsp bd st3 (by rw [hone]; exact hend)
    rw [e1, ← heq] at h2
    rw [hC.unique h2]
    exact (evalFields_cache hend).keep _ _ hget

omit [Unicode] in
theorem evalInclude_hit {fs : FS} {load : Loader} {file : Option Str} {stack : List Str} {kind : IncKind} {p F : Str}
    {st : ESt} {v : Value} (hF : Leads fs (meantIn file p) F) (hs : F ∉ stack) (hg : StrMap.get st.cache F = some v) :
    evalInclude fs file stack load kind p st = .ok (v, st) := by
  rw [evalInclude_leads hF, if_neg hs]
  simp only [evalCached, hg]

/-- C37: a file is loaded once.  Let the field `y` behind the definitions `u` at the place `A` be defined by an include
of the file `F`, with value `v`, and any further definitions `t` follow.  At every place `B` at the end of the resulting
text, every include of `F` (by any path that leads to `F`, with any keyword) denotes the same instance `v`. -/
theorem c37_same_instance (fs : FS) (rt : Rt) (A : List (Str × Str)) (u : Str) (p : Obj) (h : ReadsAt fs rt A u p)
    (k : Option IncKind) (path b F : Str) (hb : StrBody path b) (hF : Leads fs path F) (y : Str) (hy : FieldName y)
    (hn : NotNamed p.pairs y) (p1 : Obj) (v : Value)
    (h1 : ReadsAt fs rt A (u ++ c!"\n" ++ y ++ c!":" ++ includeText k b) p1) (hv : p1.pairs = p.pairs ++ [.mk y v])
    (t : Str) (ht : WellFormed t) (B : List (Str × Str)) (w : Str) (q : Obj) (hB : ReadsAt fs rt B w q)
    (heq : nest B w = nest A (u ++ c!"\n" ++ y ++ c!":" ++ includeText k b ++ c!"\n" ++ t)) (hd : B.length ≤ 62)
    (k' : Option IncKind) (path' b' : Str) (hb' : StrBody path' b') (hF' : Leads fs path' F) (z : Str) (hz : FieldName z)
    (hnz : NotNamed q.pairs z) :
    ∃ q', ReadsAt fs rt B (w ++ c!"\n" ++ z ++ c!":" ++ includeText k' b') q' ∧ q'.pairs = q.pairs ++ [.mk z v] ∧
      q'.parent = q.parent := by
  obtain ⟨st, -, hC, hc, -, -⟩ := at_place_cache hB
  have hget := included_cached h hb hF hy hn h1 hv ht hB heq hC
  obtain ⟨kk, st2, hcache, -, -, -, he⟩ := evalIncl fs none [] (theLoader fs) k' path' q.pairs (1 + B.length) st
  rw [if_neg (by omega), evalInclude_hit (v := v) hF' (by simp) (by rw [hcache]; exact hget)] at he
  obtain ⟨-, -, h3⟩ := field_at hc hz hnz (spIncl (k := k') hb')
  exact (h3 v st2 he).2

/-- C37: … also when the second include stands in another file: a file `G` that has not been included before and
consists of an include of `F` becomes an object whose only field is the same instance `v`. -/
theorem c37_same_instance_in_another_file (fs : FS) (rt : Rt) (A : List (Str × Str)) (u : Str) (p : Obj)
    (h : ReadsAt fs rt A u p)
    (k : Option IncKind) (path b F : Str) (hb : StrBody path b) (hF : Leads fs path F) (y : Str) (hy : FieldName y)
    (hn : NotNamed p.pairs y) (p1 : Obj) (v : Value)
    (h1 : ReadsAt fs rt A (u ++ c!"\n" ++ y ++ c!":" ++ includeText k b) p1) (hv : p1.pairs = p.pairs ++ [.mk y v])
    (t : Str) (ht : WellFormed t) (B : List (Str × Str)) (w : Str) (q : Obj)
    (pathG G : Str) (hG : Leads fs pathG G) (hGF : G ≠ F) (hB : ReadsAt (fs.without G) rt B w q)
    (heq : nest B w = nest A (u ++ c!"\n" ++ y ++ c!":" ++ includeText k b ++ c!"\n" ++ t)) (hd : B.length ≤ 62)
    (k' : Option IncKind) (path' b' x : Str) (hb' : StrBody path' b') (hF' : Leads fs (beside pathG path') F)
    (hx : FieldName x) (hread : fs.read pathG = .ok (x ++ ':' :: includeText k' b'))
    (bG : Str) (hbG : StrBody pathG bG) (z : Str) (hz : FieldName z) (hnz : NotNamed q.pairs z) :
    ∃ q' i, ReadsAt fs rt B (w ++ c!"\n" ++ z ++ c!":" ++ includeText none bG) q' ∧
      q'.pairs = q.pairs ++ [.mk z (.obj (.mk i [.mk x v] none))] ∧ q'.parent = q.parent := by
  have hB' := readsAt_sub (without_sub fs G) hB
  obtain ⟨st, -, hC, hc, -, -⟩ := at_place_cache hB'
  obtain ⟨st0, -, hC0, -⟩ := at_place_cache hB
  have hget := included_cached h hb hF hy hn h1 hv ht hB' heq hC
  have hnone : StrMap.get st.cache G = none := by
    cases hg : StrMap.get st.cache G with
    | none => rfl
    | some v =>
      rw [hC.unique (finalCache_sub (without_sub fs G) (Nat.le_refl _) hC0)] at hg
      obtain ⟨path, hp⟩ := hC0.leads hg
      exact absurd rfl (leads_without.1 hp).2
  obtain ⟨-, -, h3⟩ := field_at hc hz hnz (spIncl (k := none) hbG)
  have hdoc : SpDoc [.mk (.field x) (inclExpr k' path')] (x ++ ':' :: includeText k' b') := spOne (.field hx) (spIncl hb')
  have hx' : FileText .obj (x ++ ':' :: includeText k' b') := ⟨_, hdoc⟩
  have hch : Exists.choose hx' = [.mk (.field x) (inclExpr k' path')] :=
    c49_one_document _ _ _ (Exists.choose_spec hx') hdoc
  have hload : ∃ i st', theLoader fs [G] .obj pathG st = .ok (.obj (.mk i [.mk x v] none), st') := by
    unfold theLoader
    rw [loadN_obj hread _ _ hx', hch]
    obtain ⟨kk, st2, hcache, -, -, -, he⟩ := evalIncl fs (some pathG) [G] (loadN fs fs.nodes.length) k' path' [] 1
      { st with globals := [] }
    rw [if_neg (by omega), evalInclude_hit (v := v) (show Leads fs (meantIn (some pathG) path') F from hF')
      (by simpa using fun e => hGF e.symm) (by rw [hcache]; exact hget)] at he
    have hfields : evalFields fs (some pathG) [G] (loadN fs fs.nodes.length) [.mk (.field x) (inclExpr k' path')] 1 [] none
        { st with globals := [] } = .ok (([.mk x v], none), st2) := by
      rw [evalFields_one, if_neg (by simp), he]
      rfl
    have hdocev : evalDoc fs (some pathG) [G] (loadN fs fs.nodes.length) [.mk (.field x) (inclExpr k' path')]
        { st with globals := [] } = .ok (.mk st2.rt.curId [.mk x v] none, st2.next) := by
      unfold evalDoc
      rw [EM.bind_ok hfields]
      rfl
    refine ⟨st2.rt.curId, { st2.next with globals := st.globals }, ?_⟩
    unfold EM.ownGlobals
    rw [EM.bind_ok hdocev]
    rfl
  obtain ⟨i, st', hload⟩ := hload
  obtain ⟨-, q', h4, h5, h6⟩ := h3 (.obj (.mk i [.mk x v] none)) { st' with cache := StrMap.insert st'.cache G (.obj (.mk i [.mk x v] none)) } (by
    obtain ⟨kk, st2, -, -, -, hk, he⟩ := evalIncl fs none [] (theLoader fs) none pathG q.pairs (1 + B.length) st
    obtain ⟨rfl, rfl⟩ := hk rfl
    rw [he, if_neg (by omega), evalInclude_leads (file := none) (p := pathG) hG, if_neg (by simp)]
    simp only [evalCached, hnone]
    rw [show meantIn none pathG = pathG from rfl, hload])
  exact ⟨q', i, h4, h5, h6⟩

/-! ## C38 -/

/-- The evaluation of a first include. -/
theorem first_include {fs fs' : FS} (hsub : fs'.Sub fs) (hl : fs'.nodes.length ≤ fs.nodes.length) {rt : Rt} (hrt : rt.Fine)
    {A : List (Str × Str)} {u : Str} {p : Obj} (h : ReadsAt fs' rt A u p) {path F : Str}
    (hF : Leads fs path F) (hno : ∀ q, ¬ Leads fs' q F) (k : Option IncKind) :
    ∃ st st1 : ESt, Continues fs rt A u p st ∧ st1.rt.Fine ∧ StrMap.get st1.cache F = none ∧
      (∀ k v, StrMap.get st1.cache k = some v → ∃ path, Leads fs' path k) ∧
      evalExpr fs none [] (theLoader fs) (inclExpr k path) p.pairs (1 + A.length) st =
        if 1 + A.length + 1 > 64 then .error (.sem none .maxDepth) else
        match loadN fs (fs.nodes.length + 1) [F] (k.getD .obj) path st1 with
        | .ok (v, st') => .ok (v, { st' with cache := StrMap.insert st'.cache F v })
        | .error e => .error e := by
  obtain ⟨st, hc, hC, hf⟩ := at_place_sub hsub hl h
  obtain ⟨kk, st1, h1, -, h2, -, h3⟩ := evalIncl fs none [] (theLoader fs) k path p.pairs (1 + A.length) st
  obtain ⟨rfl, hf1⟩ := h2 (hf hrt)
  have hnone : StrMap.get st1.cache F = none := by
    rw [h1]
    cases hg : StrMap.get st.cache F with
    | none => rfl
    | some v => obtain ⟨q, hq⟩ := hC F v hg; exact absurd hq (hno q)
  refine ⟨st, st1, hc, hf1, hnone, ?_, ?_⟩
  · rw [h1]; exact hC
  · rw [h3]
    by_cases hd : 1 + A.length + 1 > 64
    · rw [if_pos hd, if_pos hd]
    · rw [if_neg hd, if_neg hd, evalInclude_leads (file := none) (p := path) hF, if_neg (by simp)]
      simp only [evalCached, hnone]
      rfl

/-- C38: a `Str` include of a file that has not been included before is the text of the file. -/
theorem c38_str_is_the_text (fs : FS) (rt : Rt) (hrt : rt.Fine) (A : List (Str × Str)) (u : Str) (p : Obj)
    (path F b text : Str) (hF : Leads fs path F) (h : ReadsAt (fs.without F) rt A u p) (hb : StrBody path b)
    (ht : fs.read path = .ok text) (hd : A.length ≤ 62) (y : Str) (hy : FieldName y) (hn : NotNamed p.pairs y) :
    ∃ p', ReadsAt fs rt A (u ++ c!"\n" ++ y ++ c!":" ++ includeText (some .str) b) p' ∧
      p'.pairs = p.pairs ++ [.mk y (.str text)] ∧ p'.parent = p.parent := by
  obtain ⟨st, st1, hc, -, -, -, he⟩ := first_include (without_sub fs F) (Nat.le_refl _) hrt h hF
    (fun q hq => (leads_without.1 hq).2 rfl) (some .str)
  obtain ⟨-, -, h3⟩ := field_at hc hy hn (spIncl (k := some .str) hb)
  rw [if_neg (by omega)] at he
  simp only [Option.getD] at he
  rw [loadN_str ht] at he
  exact (h3 _ _ he).2

/-- What a loader returns, by kind. -/
def KindOf (fs : FS) (path : Str) (v : Value) : IncKind → Prop
  | .str => ∃ text, fs.read path = .ok text ∧ v = .str text
  | .obj => ∃ o, v = .obj o
  | .arr => ∃ i t vs, v = .arr i t vs
  | .tup => ∃ i t vs, v = .tup i t vs

theorem loadN_kind {fs : FS} {n : Nat} {stack : List Str} {kind : IncKind} {path : Str} {st st' : ESt} {v : Value}
    (h : loadN fs n stack kind path st = .ok (v, st')) :
    KindOf fs path v kind := by
  cases n with
  | zero => simp only [loadN] at h; cases h
  | succ n =>
    cases htext : fs.read path with
    | error msg => rw [loadN_io htext] at h; cases h
    | ok text =>
      by_cases hx : FileText kind text
      swap
      · rw [loadN_malformed htext n stack hx] at h; cases h
      have own : ∀ {m : EM Value} {Q : Value → Prop}, eok m Q → EM.ownGlobals m st = .ok (v, st') → Q v := by
        intro m Q hm he
        unfold EM.ownGlobals at he
        cases hms : m { st with globals := [] } with
        | error e => rw [hms] at he; cases he
        | ok x => rw [hms] at he; cases he; exact hm _ _ _ hms
      cases kind with
      | str => rw [loadN_str htext] at h; cases h; exact ⟨_, htext, rfl⟩
      | obj =>
        rw [loadN_obj htext n stack hx] at h
        refine own (Q := fun v => KindOf fs path v .obj) (eok_bind eok_true fun o _ => eok_pure ⟨o, rfl⟩) h
      | arr =>
        rw [loadN_arr htext n stack hx] at h
        refine own (Q := fun v => KindOf fs path v .arr) ?_ h
        unfold evalArrFile
        exact eok_bind eok_true fun x _ => eok_bind eok_true fun i _ => eok_pure ⟨i, _, _, rfl⟩
      | tup =>
        rw [loadN_tup htext n stack hx] at h
        refine own (Q := fun v => KindOf fs path v .tup) ?_ h
        unfold evalTupFile
        exact eok_bind eok_true fun x _ => eok_bind eok_true fun i _ => eok_pure ⟨i, _, _, rfl⟩

/-- C38: the first include of a file has the requested kind (`Obj` without a keyword); a `Str` include is the text. -/
theorem c38_requested_kind (fs : FS) (rt : Rt) (hrt : rt.Fine) (A : List (Str × Str)) (u : Str) (p : Obj)
    (path F b : Str) (hF : Leads fs path F) (h : ReadsAt (fs.without F) rt A u p) (hb : StrBody path b)
    (k : Option IncKind) (v : Value) (hv : Denotes fs rt A u p (includeText k b) v) :
    match k with
    | none => ∃ o, v = .obj o
    | some .obj => ∃ o, v = .obj o
    | some .str => ∃ text, fs.read path = .ok text ∧ v = .str text
    | some .arr => ∃ i t vs, v = .arr i t vs
    | some .tup => ∃ i t vs, v = .tup i t vs := by
  obtain ⟨st, st1, hc, -, -, -, he⟩ := first_include (without_sub fs F) (Nat.le_refl _) hrt h hF
    (fun q hq => (leads_without.1 hq).2 rfl) k
  obtain ⟨st', hev⟩ := hv.eval hc (spIncl (k := k) hb)
  rw [hev] at he
  by_cases hd : 1 + A.length + 1 > 64
  · rw [if_pos hd] at he; cases he
  rw [if_neg hd] at he
  cases hl : loadN fs (fs.nodes.length + 1) [F] (k.getD .obj) path st1 with
  | error e => rw [hl] at he; cases he
  | ok x =>
    obtain ⟨w, st2⟩ := x
    rw [hl] at he
    cases he
    have := loadN_kind hl
    cases k with
    | none => exact this
    | some k =>
      cases k with
      | obj => exact this
      | arr => exact this
      | tup => exact this
      | str =>
        exact this

omit [Unicode] in
theorem cache_empty {C : StrMap Value} (h : ∀ k, StrMap.get C k = none) : C = [] := by
  cases C with
  | nil => rfl
  | cons e C =>
    have := h e.1
    simp [StrMap.get, List.find?] at this

/-- C38: an object include in front of which no other include stands yields exactly what `Obj::from_file` yields for
that file, called in the process state reached at that point. -/
theorem c38_obj_is_from_file (fs : FS) (rt : Rt) (hrt : rt.Fine) (A : List (Str × Str)) (u : Str) (p : Obj)
    (path F b : Str) (hF : Leads fs path F) (h : ReadsAt noFiles rt A u p) (hb : StrBody path b) (hd : A.length ≤ 62)
    (k : Option IncKind) (hk : k = none ∨ k = some .obj) (y : Str) (hy : FieldName y) (hn : NotNamed p.pairs y) :
    ∃ rt' : Rt, rt'.Fine ∧
      (∀ o s, fromFile fs path rt' = .ok o s →
        ∃ p', ReadsAt fs rt A (u ++ c!"\n" ++ y ++ c!":" ++ includeText k b) p' ∧
          p'.pairs = p.pairs ++ [.mk y (.obj o)] ∧ p'.parent = p.parent) ∧
      (∀ e, fromFile fs path rt' = .err e →
        ∃ e', fromStr fs (nest A (u ++ c!"\n" ++ y ++ c!":" ++ includeText k b)) rt = .err e') := by
  obtain ⟨st, st1, hc, hf, hnone, hC, he⟩ := first_include (noFiles_sub fs) (Nat.zero_le _) hrt h hF
    (fun q => noFiles_leads q F) k
  have hk' : k.getD .obj = .obj := by rcases hk with rfl | rfl <;> rfl
  have hcache : st1.cache = [] := cache_empty fun k => by
    cases hg : StrMap.get st1.cache k with
    | none => rfl
    | some v => obtain ⟨q, hq⟩ := hC k v hg; exact absurd hq (noFiles_leads _ _)
  rw [if_neg (by omega), hk'] at he
  obtain ⟨h1, -, h3⟩ := field_at hc hy hn (spIncl (k := k) hb)
  have hst : ({ st1 with globals := [] } : ESt) = ⟨[], [], st1.rt⟩ := by rw [← hcache]
  refine ⟨st1.rt, hf, ?_, ?_⟩
  · intro o s hr
    obtain ⟨text, d, st2, h0, hdoc, -, -⟩ := c45_from_file_accepts fs path F st1.rt o s hF.1 hr
    have hx : FileText .obj text := ⟨d, hdoc⟩
    have hout := fromFile_of_eval (rt := st1.rt) (K := fs.nodes.length) hF h0 (Exists.choose_spec hx) (Nat.le_refl _)
    rw [hr] at hout
    obtain ⟨o', st3, h4, rfl⟩ : ∃ o' st3, evalDoc fs (some path) [F] (loadN fs fs.nodes.length) (Exists.choose hx)
        ⟨[], [], st1.rt⟩ = .ok (o', st3) ∧ o' = o := by
      cases hev : evalDoc fs (some path) [F] (loadN fs fs.nodes.length) (Exists.choose hx) ⟨[], [], st1.rt⟩ with
      | error e => rw [hev] at hout; exact hout.elim
      | ok x => rw [hev] at hout; exact ⟨x.1, x.2, rfl, hout.1.symm⟩
    have hload : loadN fs (fs.nodes.length + 1) [F] .obj path st1 = .ok (.obj o', { st3 with globals := st1.globals }) := by
      rw [loadN_obj h0 _ _ hx]
      unfold EM.ownGlobals
      rw [hst, EM.bind_ok h4]
      rfl
    rw [hload] at he
    exact (h3 _ _ he).2
  · intro e hr
    have herr : ∃ e2, loadN fs (fs.nodes.length + 1) [F] .obj path st1 = .error e2 := by
      cases h0 : fs.read path with
      | error m => exact ⟨_, by rw [loadN_io h0]⟩
      | ok text =>
        by_cases hx : FileText .obj text
        swap
        · exact ⟨_, by rw [loadN_malformed h0 _ _ hx]⟩
        have hout := fromFile_of_eval (rt := st1.rt) (K := fs.nodes.length) hF h0 (Exists.choose_spec hx) (Nat.le_refl _)
        rw [hr] at hout
        cases hev : evalDoc fs (some path) [F] (loadN fs fs.nodes.length) (Exists.choose hx) ⟨[], [], st1.rt⟩ with
        | ok x => rw [hev] at hout; exact hout.elim
        | error e2 =>
          refine ⟨e2, ?_⟩
          rw [loadN_obj h0 _ _ hx]
          unfold EM.ownGlobals
          rw [hst, EM.bind_err hev]
    obtain ⟨e2, herr⟩ := herr
    rw [herr] at he
    obtain ⟨e', h4, -⟩ := (h1 e2 he).of_error
    exact ⟨e', h4⟩

/-- C38: an object include of a file that needs none of the files included before (which are among the files `S`) yields
exactly what `Obj::from_file` yields for that file, called in the process state reached at that point. -/
theorem c38_obj_of_other_files (fs : FS) (S : Str → Bool) (rt : Rt) (hrt : rt.Fine) (A : List (Str × Str)) (u : Str) (p : Obj)
    (path F b : Str) (hF : Leads fs path F) (h : ReadsAt (fs.only S) rt A u p) (hb : StrBody path b) (hd : A.length ≤ 62)
    (k : Option IncKind) (hk : k = none ∨ k = some .obj) (y : Str) (hy : FieldName y) (hn : NotNamed p.pairs y) :
    ∃ rt' : Rt, rt'.Fine ∧ ∀ o s, fromFile (fs.only fun G => !S G) path rt' = .ok o s →
      ∃ p', ReadsAt fs rt A (u ++ c!"\n" ++ y ++ c!":" ++ includeText k b) p' ∧
        p'.pairs = p.pairs ++ [.mk y (.obj o)] ∧ p'.parent = p.parent := by
  by_cases hSF : S F = true
  · refine ⟨rt, hrt, fun o s hr => ?_⟩
    have hno : (fs.only fun G => !S G).resolve path = none := by
      rw [resolve_only, hF.1]
      simp [hSF]
    simp only [fromFile, FS.read, hno] at hr
    cases hr
  obtain ⟨st, st1, hc, hf, hnone, hC, he⟩ := first_include (only_sub fs S) (Nat.le_refl _) hrt h hF
    (fun q hq => hSF (leads_only.1 hq).2) k
  have hk' : k.getD .obj = .obj := by rcases hk with rfl | rfl <;> rfl
  rw [if_neg (by omega), hk'] at he
  obtain ⟨h1, -, h3⟩ := field_at hc hy hn (spIncl (k := k) hb)
  have hF2 : Leads (fs.only fun G => !S G) path F := leads_only.2 ⟨hF, by simpa using hSF⟩
  have hkeys : ∀ q G, Leads (fs.only fun G => !S G) q G → StrMap.get st1.cache G = none := by
    intro q G hG
    cases hg : StrMap.get st1.cache G with
    | none => rfl
    | some v =>
      obtain ⟨q', hq'⟩ := hC G v hg
      have := (leads_only.1 hG).2
      simp [(leads_only.1 hq').2] at this
  refine ⟨st1.rt, hf, fun o s hr => ?_⟩
  obtain ⟨text, d, st2, h0, hdoc, -, -⟩ := c45_from_file_accepts _ path F st1.rt o s hF2.1 hr
  have hx : FileText .obj text := ⟨d, hdoc⟩
  have hout := fromFile_of_eval (rt := st1.rt) (K := fs.nodes.length) hF2 h0 (Exists.choose_spec hx) (Nat.le_refl _)
  rw [hr] at hout
  obtain ⟨o', st3, h4, rfl⟩ : ∃ o' st3, evalDoc (fs.only fun G => !S G) (some path) [F]
      (loadN (fs.only fun G => !S G) fs.nodes.length) (Exists.choose hx) ⟨[], [], st1.rt⟩ = .ok (o', st3) ∧ o' = o := by
    cases hev : evalDoc (fs.only fun G => !S G) (some path) [F] (loadN (fs.only fun G => !S G) fs.nodes.length)
        (Exists.choose hx) ⟨[], [], st1.rt⟩ with
    | error e => rw [hev] at hout; exact hout.elim
    | ok x => rw [hev] at hout; exact ⟨x.1, x.2, rfl, hout.1.symm⟩
  have h5 := over_evalDoc (C := st1.cache) (fs' := fs) (file' := some path) (stack' := [F]) (load' := loadN fs fs.nodes.length)
    (over_include (only_sub fs _) hkeys (fun _ _ _ h => h) fun q G k hG => over_loadN (only_sub fs _) hkeys (Nat.le_refl _) _ _
      (fun _ _ _ h => h) _ _ _ hG) _ _ _ _ h4
  have hload : loadN fs (fs.nodes.length + 1) [F] .obj path st1 =
      .ok (.obj o', { st3.over st1.cache with globals := st1.globals }) := by
    rw [loadN_obj (((only_sub fs _).read _ _ hF2).trans h0) _ _ hx]
    unfold EM.ownGlobals
    rw [show ({ st1 with globals := [] } : ESt) = ESt.over st1.cache ⟨[], [], st1.rt⟩ from rfl, EM.bind_ok h5]
    rfl
  rw [hload] at he
  exact (h3 _ _ he).2

/-- A sequence of values at the end of a file, before a newline and a closing bracket. -/
theorem spItems_close : ∀ (es : List Expr) (t : Str), SpItems true es t → SpItems false es (t ++ ['\n'])
  | [], t, h => by
    cases h with
    | nil hg => exact .nil (endGap_newline hg)
  | e :: es, t, h => by
    cases h with
    | @cons _ g s r _ _ h1 h2 h3 h4 =>
      have h5 := spItems_close es r h3
      have h6 : es = [] ∨ StartsSeparated (r ++ ['\n']) := by
        rcases h4 with h | ⟨c, r', rfl, hc⟩
        · exact .inl h
        · exact .inr ⟨c, r' ++ ['\n'], rfl, hc⟩
      have := SpItems.cons h1 h2 h5 h6
      simpa using this

theorem spArrDoc {x t : Str} {es : List Expr} (hx : FieldName x) (h : SpItems true es t) :
    SpDoc [.mk (.field x) (.mk (.arr es) [])] (x ++ c!":[" ++ t ++ c!"\n]") := by
  have h1 := SpExpr.mk (.arr (spItems_close es t h)) .nil
  have := spOne (.field hx) h1
  simpa using this

theorem spTupDoc {x t : Str} {es : List Expr} (hx : FieldName x) (h : SpItems true es t) :
    SpDoc [.mk (.field x) (.mk (.tup es) [])] (x ++ c!":(" ++ t ++ c!"\n)") := by
  have h1 := SpExpr.mk (.tup (spItems_close es t h)) .nil
  have := spOne (.field hx) h1
  simpa using this

omit [Unicode] in
/-- Without files nothing can be included. -/
theorem noFiles_carries {fs : FS} {file file' : Option Str} {stack stack' : List Str} {load load' : Loader} (kind : IncKind)
    (p : Str) : Carries (evalInclude noFiles file stack load kind p) (evalInclude fs file' stack' load' kind p) := by
  intro st v st' h
  obtain ⟨F, h1, -⟩ := evalInclude_ok h
  exact absurd h1 (noFiles_leads _ _)

omit [Unicode] in
theorem noFiles_over {C : StrMap Value} {fs : FS} {file file' : Option Str} {stack stack' : List Str} {load load' : Loader}
    (kind : IncKind) (p : Str) :
    CarriesOver C (evalInclude noFiles file stack load kind p) (evalInclude fs file' stack' load' kind p) := by
  intro st v st' h
  obtain ⟨F, h1, -⟩ := evalInclude_ok h
  exact absurd h1 (noFiles_leads _ _)

/-- C38: an `Arr` include of a file that has not been included before, with the values `t`, yields what reading
the array `[t]` yields in the process state reached at that point. -/
theorem c38_arr_is_the_array (fs : FS) (rt : Rt) (hrt : rt.Fine) (A : List (Str × Str)) (u : Str) (p : Obj)
    (path F b t : Str) (es : List Expr) (hF : Leads fs path F) (h : ReadsAt (fs.without F) rt A u p) (hb : StrBody path b)
    (hd : A.length ≤ 62) (ht : fs.read path = .ok t) (hes : SpItems true es t) (y : Str) (hy : FieldName y)
    (hn : NotNamed p.pairs y) :
    ∃ rt' : Rt, rt'.Fine ∧ ∀ x o s v, FieldName x → fromStr noFiles (x ++ c!":[" ++ t ++ c!"\n]") rt' = .ok o s →
      o.pairs = [.mk x v] →
      ∃ p', ReadsAt fs rt A (u ++ c!"\n" ++ y ++ c!":" ++ includeText (some .arr) b) p' ∧
        p'.pairs = p.pairs ++ [.mk y v] ∧ p'.parent = p.parent := by
  obtain ⟨st, st1, hc, hf, -, hC, he⟩ := first_include (without_sub fs F) (Nat.le_refl _) hrt h hF
    (fun q hq => (leads_without.1 hq).2 rfl) (some .arr)
  have hst : ({ st1 with globals := [] } : ESt) = ESt.over st1.cache ⟨[], [], st1.rt⟩ := rfl
  refine ⟨st1.rt, hf, ?_⟩
  intro x o s v hx hr ho
  obtain ⟨d, stE, h1, h2, -⟩ := c45_from_str_accepts _ _ _ _ _ hr
  cases c49_one_document _ _ _ h1 (spArrDoc hx hes)
  simp only [meaning, evalDoc] at h2
  have hx' : FileText .arr t := ⟨es, hes⟩
  have hch : Exists.choose hx' = es := c49_one_sequence _ _ _ (Exists.choose_spec hx') hes
  cases hev : evalFields noFiles none [] (loadN noFiles (noFiles.nodes.length + 1)) [.mk (.field x) (.mk (.arr es) [])] 1 []
      none ⟨[], [], st1.rt⟩ with
  | error e => rw [EM.bind_err hev] at h2; cases h2
  | ok z =>
    obtain ⟨bd, st2⟩ := z
    rw [EM.bind_ok hev] at h2
    cases h2
    rw [evalFields_one, if_neg (by simp), evalExpr_term] at hev
    cases hev2 : evalTerm noFiles none [] (loadN noFiles (noFiles.nodes.length + 1)) (.arr es) [] 1 ⟨[], [], st1.rt⟩ with
    | error e => rw [hev2] at hev; cases hev
    | ok z =>
      obtain ⟨w, st3⟩ := z
      rw [hev2] at hev
      cases hev
      have hw : w = v := by simpa [Obj.pairs] using ho
      subst hw
      have hfile : evalArrFile fs (some path) [F] (loadN fs fs.nodes.length) es (ESt.over st1.cache ⟨[], [], st1.rt⟩) =
          .ok (w, st2.over st1.cache) := by
        simp only [evalTerm, depthCheck] at hev2
        rw [if_neg (by omega), EM.bind_ok (a := ()) (st' := ⟨[], [], st1.rt⟩) rfl] at hev2
        unfold evalArrFile
        exact CarriesOver.bind (over_evalElems noFiles_over es [] .any (by omega : 1 ≤ 1 + 1)) (fun _ => by framed) _ _ _ hev2
      have hload : loadN fs (fs.nodes.length + 1) [F] .arr path st1 =
          .ok (w, { st2.over st1.cache with globals := st1.globals }) := by
        rw [loadN_arr ht _ _ hx', hch]
        unfold EM.ownGlobals
        rw [hst, hfile]
      rw [if_neg (by omega)] at he
      simp only [Option.getD] at he
      rw [hload] at he
      exact ((field_at hc hy hn (spIncl (k := some .arr) hb)).2.2 _ _ he).2

/-- C38: the same for `Tup`. -/
theorem c38_tup_is_the_tuple (fs : FS) (rt : Rt) (hrt : rt.Fine) (A : List (Str × Str)) (u : Str) (p : Obj)
    (path F b t : Str) (es : List Expr) (hF : Leads fs path F) (h : ReadsAt (fs.without F) rt A u p) (hb : StrBody path b)
    (hd : A.length ≤ 62) (ht : fs.read path = .ok t) (hes : SpItems true es t) (y : Str) (hy : FieldName y)
    (hn : NotNamed p.pairs y) :
    ∃ rt' : Rt, rt'.Fine ∧ ∀ x o s v, FieldName x → fromStr noFiles (x ++ c!":(" ++ t ++ c!"\n)") rt' = .ok o s →
      o.pairs = [.mk x v] →
      ∃ p', ReadsAt fs rt A (u ++ c!"\n" ++ y ++ c!":" ++ includeText (some .tup) b) p' ∧
        p'.pairs = p.pairs ++ [.mk y v] ∧ p'.parent = p.parent := by
  obtain ⟨st, st1, hc, hf, -, hC, he⟩ := first_include (without_sub fs F) (Nat.le_refl _) hrt h hF
    (fun q hq => (leads_without.1 hq).2 rfl) (some .tup)
  have hst : ({ st1 with globals := [] } : ESt) = ESt.over st1.cache ⟨[], [], st1.rt⟩ := rfl
  refine ⟨st1.rt, hf, ?_⟩
  intro x o s v hx hr ho
  obtain ⟨d, stE, h1, h2, -⟩ := c45_from_str_accepts _ _ _ _ _ hr
  cases c49_one_document _ _ _ h1 (spTupDoc hx hes)
  simp only [meaning, evalDoc] at h2
  have hx' : FileText .tup t := ⟨es, hes⟩
  have hch : Exists.choose hx' = es := c49_one_sequence _ _ _ (Exists.choose_spec hx') hes
  cases hev : evalFields noFiles none [] (loadN noFiles (noFiles.nodes.length + 1)) [.mk (.field x) (.mk (.tup es) [])] 1 []
      none ⟨[], [], st1.rt⟩ with
  | error e => rw [EM.bind_err hev] at h2; cases h2
  | ok z =>
    obtain ⟨bd, st2⟩ := z
    rw [EM.bind_ok hev] at h2
    cases h2
    rw [evalFields_one, if_neg (by simp), evalExpr_term] at hev
    cases hev2 : evalTerm noFiles none [] (loadN noFiles (noFiles.nodes.length + 1)) (.tup es) [] 1 ⟨[], [], st1.rt⟩ with
    | error e => rw [hev2] at hev; cases hev
    | ok z =>
      obtain ⟨w, st3⟩ := z
      rw [hev2] at hev
      cases hev
      have hw : w = v := by simpa [Obj.pairs] using ho
      subst hw
      have hfile : evalTupFile fs (some path) [F] (loadN fs fs.nodes.length) es (ESt.over st1.cache ⟨[], [], st1.rt⟩) =
          .ok (w, st2.over st1.cache) := by
        simp only [evalTerm, depthCheck] at hev2
        rw [if_neg (by omega), EM.bind_ok (a := ()) (st' := ⟨[], [], st1.rt⟩) rfl] at hev2
        unfold evalTupFile
        exact CarriesOver.bind (over_evalItems noFiles_over es [] (by omega : 1 ≤ 1 + 1)) (fun _ => by framed) _ _ _ hev2
      have hload : loadN fs (fs.nodes.length + 1) [F] .tup path st1 =
          .ok (w, { st2.over st1.cache with globals := st1.globals }) := by
        rw [loadN_tup ht _ _ hx', hch]
        unfold EM.ownGlobals
        rw [hst, hfile]
      rw [if_neg (by omega)] at he
      simp only [Option.getD] at he
      rw [hload] at he
      exact ((field_at hc hy hn (spIncl (k := some .tup) hb)).2.2 _ _ he).2

/-! ## C36 -/

/-- Reading a text up to its include. -/
theorem eval_includesNext {fs : FS} {file : Option Str} {stack : List Str} {load : Loader} {text q : Str}
    (h : IncludesNext text q) {rt : Rt} (hf : rt.Fine) {d : List Field} (hd : SpDoc d text) {e : SemErr}
    (he : ∀ st : ESt, st.cache = [] → st.rt.Fine → evalInclude fs file stack load .obj q st = .error e) :
    evalDoc fs file stack load d ⟨[], [], rt⟩ = .error e := by
  obtain ⟨u, z, k, b, rest, rfl, hu, hz, hk, hb, ⟨dr, hdr⟩⟩ := h
  obtain ⟨rt0, o0, s0, hf0, hr0, hn0⟩ := hu
  obtain ⟨f, s, hr⟩ := reads_again hf0 hf hr0
  have hn : NotNamed (o0.mapIds f).pairs z := by
    cases o0
    intro p hp
    have h1 := List.mem_map_of_mem (f := Pair.field) hp
    simp only [Obj.mapIds, Obj.pairs, Pair.mapIdsL_names, List.mem_map] at h1
    obtain ⟨p0, h2, h3⟩ := h1
    rw [← h3]; exact hn0 p0 h2
  generalize o0.mapIds f = o at hr hn
  obtain ⟨du, stE, h1, h2, -⟩ := c45_from_str_accepts _ _ _ _ _ hr
  have h3 : SpDoc (du ++ ([.mk (.field z) (inclExpr k q)] ++ dr)) (u ++ '\n' :: (z ++ ':' :: includeText k b ++ '\n' :: rest)) :=
    spDoc_append (spDoc_append hdr _ _ (spOne (.field hz) (spIncl hb))) du u h1
  have e1 : u ++ '\n' :: (z ++ ':' :: includeText k b ++ '\n' :: rest) =
      u ++ c!"\n" ++ z ++ c!":" ++ includeText k b ++ c!"\n" ++ rest := by simp
  rw [e1] at h3
  cases c49_one_document _ _ _ hd h3
  simp only [meaning, evalDoc] at h2
  cases hev : evalFields noFiles none [] (loadN noFiles (noFiles.nodes.length + 1)) du 1 [] none ⟨[], [], rt⟩ with
  | error e => rw [EM.bind_err hev] at h2; cases h2
  | ok x =>
    obtain ⟨⟨ps, par⟩, st1⟩ := x
    rw [EM.bind_ok hev] at h2
    cases h2
    have hcache : st1.cache = [] := cache_empty fun k => by
      cases hg : StrMap.get st1.cache k with
      | none => rfl
      | some v =>
        rcases (evalFields_cache hev).leads k v hg with h | ⟨q, hq⟩
        · cases h
        · exact absurd hq (noFiles_leads _ _)
    have hev2 := carries_evalFields (fs' := fs) (file' := file) (stack' := stack) (load' := load) noFiles_carries du [] none
      (Nat.le_refl 1) _ _ _ hev
    obtain ⟨kk, st2, hc2, -, hfi, -, hin⟩ := evalIncl fs file stack load k q ps 1 st1
    obtain ⟨hkk, hf2⟩ := hfi (fine_fields hev hf)
    have hkk' : kk = .obj := by rw [hkk]; rcases hk with rfl | rfl <;> rfl
    rw [if_neg (by omega), hkk', he st2 (hc2.trans hcache) hf2] at hin
    have hall : evalFields fs file stack load (du ++ ([.mk (.field z) (inclExpr k q)] ++ dr)) 1 [] none ⟨[], [], rt⟩ = .error e := by
      rw [evalFields_append, hev2]
      simp only []
      have hn' : NotNamed ps z := hn
      rw [evalFields_append, evalFields_one, if_neg (notNamed_mem hn'), hin]
    unfold evalDoc
    rw [EM.bind_err hall]

/-- A text that includes a file is a document. -/
theorem includesNext_wf {text q : Str} (h : IncludesNext text q) : ∃ d, SpDoc d text := by
  obtain ⟨u, z, k, b, rest, rfl, hu, hz, -, hb, ⟨dr, hdr⟩⟩ := h
  obtain ⟨_, o, s, _, hr, _⟩ := hu
  obtain ⟨du, hdu⟩ := wellFormed_of_read hr
  have h3 := spDoc_append (spDoc_append hdr _ _ (spOne (.field hz) (spIncl (k := k) hb))) du u hdu
  have e1 : u ++ '\n' :: (z ++ ':' :: includeText k b ++ '\n' :: rest) =
      u ++ c!"\n" ++ z ++ c!":" ++ includeText k b ++ c!"\n" ++ rest := by simp
  rw [e1] at h3
  exact ⟨_, h3⟩

theorem cycle_eval {fs : FS} {opened : List Str} {path last inc : Str} (h : EndsInCycle fs opened path last inc) :
    ∀ F, Leads fs path F → ∃ K, ∀ n, K ≤ n → ∀ text d, fs.read path = .ok text → SpDoc d text → ∀ rt : Rt, rt.Fine →
      evalDoc fs (some path) (F :: opened) (loadN fs n) d ⟨[], [], rt⟩ = .error (.sem (some last) (.cyclicInclude inc)) := by
  induction h with
  | @closes opened path F text p G hF ht hnext hG hmem =>
    intro F' hF'
    cases hF.unique hF'
    refine ⟨0, fun n _ text' d ht' hd rt hf => ?_⟩
    rw [ht] at ht'
    cases ht'
    refine eval_includesNext hnext hf hd ?_
    intro st _ _
    rw [evalInclude_leads (show Leads fs (meantIn (some path) p) G from hG), if_pos hmem]
    rfl
  | @goes opened path F text p G last inc hF ht hnext hG hmem hrec ih =>
    intro F' hF'
    cases hF.unique hF'
    obtain ⟨K, hK⟩ := ih G hG
    refine ⟨K + 1, fun n hn text' d ht' hd rt hf => ?_⟩
    rw [ht] at ht'
    cases ht'
    refine eval_includesNext hnext hf hd ?_
    intro st hcache hf2
    rw [evalInclude_leads (show Leads fs (meantIn (some path) p) G from hG), if_neg hmem]
    have hnone : StrMap.get st.cache G = none := by rw [hcache]; rfl
    simp only [evalCached, hnone]
    obtain ⟨m, rfl⟩ : ∃ m, n = m + 1 := ⟨n - 1, by omega⟩
    have htext : ∃ text2, fs.read (beside path p) = .ok text2 ∧ ∃ d, SpDoc d text2 := by
      cases hrec with
      | closes h1 h2 h3 => exact ⟨_, h2, includesNext_wf h3⟩
      | goes h1 h2 h3 => exact ⟨_, h2, includesNext_wf h3⟩
    obtain ⟨text2, ht2, hx⟩ := htext
    have herr := hK m (by omega) text2 hx.choose ht2 hx.choose_spec st.rt hf2
    have hst : ({ st with globals := [] } : ESt) = ⟨[], [], st.rt⟩ := by rw [← hcache]
    have hload : loadN fs (m + 1) (G :: F :: opened) .obj (meantIn (some path) p) st =
        .error (.sem (some last) (.cyclicInclude inc)) := by
      show loadN fs (m + 1) (G :: F :: opened) .obj (beside path p) st = _
      rw [loadN_obj ht2 m _ hx]
      unfold EM.ownGlobals
      rw [hst, EM.bind_err herr]
    rw [hload]

/-- C36: reading a file from which the includes lead, through any number of files and by any paths, back to a file that
is still being read, fails with the `CyclicInclude` error in the file that closes the cycle. -/
theorem c36_from_file_cycle (fs : FS) (path last inc : Str) (h : EndsInCycle fs [] path last inc) (rt : Rt)
    (hrt : rt.Fine) : ∃ l c, fromFile fs path rt = .err ⟨some last, .cyclicInclude inc l c⟩ := by
  have hF : ∃ F text d, Leads fs path F ∧ fs.read path = .ok text ∧ SpDoc d text := by
    cases h with
    | closes h1 h2 h3 => obtain ⟨d, hd⟩ := includesNext_wf h3; exact ⟨_, _, d, h1, h2, hd⟩
    | goes h1 h2 h3 => obtain ⟨d, hd⟩ := includesNext_wf h3; exact ⟨_, _, d, h1, h2, hd⟩
  obtain ⟨F, text, d, hF, ht, hd⟩ := hF
  obtain ⟨K, hK⟩ := cycle_eval h F hF
  have h1 := fromFile_of_eval (rt := rt) hF ht hd (Nat.le_max_right K fs.nodes.length)
  rw [hK _ (Nat.le_max_left _ _) text d ht hd rt hrt] at h1
  obtain ⟨pe, h2, h3⟩ := h1.of_error
  cases h3 with
  | sem hk =>
    cases hk
    exact ⟨_, _, h2⟩

/-- C36: the same for a text that includes such a file. -/
theorem c36_from_str_cycle (fs : FS) (text path last inc : Str) (ht : IncludesNext text path)
    (h : EndsInCycle fs [] path last inc) (rt : Rt)
    (hrt : rt.Fine) : ∃ l c, fromStr fs text rt = .err ⟨some last, .cyclicInclude inc l c⟩ := by
  have hF : ∃ F text d, Leads fs path F ∧ fs.read path = .ok text ∧ SpDoc d text := by
    cases h with
    | closes h1 h2 h3 => obtain ⟨d, hd⟩ := includesNext_wf h3; exact ⟨_, _, d, h1, h2, hd⟩
    | goes h1 h2 h3 => obtain ⟨d, hd⟩ := includesNext_wf h3; exact ⟨_, _, d, h1, h2, hd⟩
  obtain ⟨F, text2, d2, hF, ht2, hd2⟩ := hF
  obtain ⟨K, hK⟩ := cycle_eval h F hF
  obtain ⟨d, hd⟩ := includesNext_wf ht
  have hx : ∃ d, SpDoc d text2 := ⟨d2, hd2⟩
  have hev : evalDoc fs none [] (loadN fs (max K fs.nodes.length + 1)) d ⟨[], [], rt⟩ =
      .error (.sem (some last) (.cyclicInclude inc)) := by
    refine eval_includesNext ht hrt hd ?_
    intro st hcache hf2
    rw [evalInclude_leads (show Leads fs (meantIn none path) F from hF), if_neg (by simp)]
    have hnone : StrMap.get st.cache F = none := by rw [hcache]; rfl
    simp only [evalCached, hnone]
    have hst : ({ st with globals := [] } : ESt) = ⟨[], [], st.rt⟩ := by rw [← hcache]
    have hload : loadN fs (max K fs.nodes.length + 1) [F] .obj (meantIn none path) st =
        .error (.sem (some last) (.cyclicInclude inc)) := by
      show loadN fs (max K fs.nodes.length + 1) [F] .obj path st = _
      rw [loadN_obj ht2 _ _ hx]
      unfold EM.ownGlobals
      rw [hst, EM.bind_err (hK _ (Nat.le_max_left _ _) text2 _ ht2 hx.choose_spec st.rt hf2)]
    rw [hload]
  have h1 := fromStr_of_eval (rt := rt) hd (Nat.le_succ_of_le (Nat.le_max_right K fs.nodes.length))
  rw [hev] at h1
  obtain ⟨pe, h2, h3⟩ := h1.of_error
  cases h3 with
  | sem hk =>
    cases hk
    exact ⟨_, _, h2⟩

/-- C36: where all includes are plain, whatever a file that is read successfully includes, directly or not and at
whatever place, is free of cycles. -/
theorem c36_no_cycle (fs : FS) (hp : fs.Plain) (path F : Str) (hF : Leads fs path F) (rt : Rt) (o : Obj) (s : PState)
    (hr : fromFile fs path rt = .ok o s) (G : Str) (hG : Relation.ReflTransGen (Includes fs) F G) :
    ¬ Relation.TransGen (Includes fs) G G := by
  obtain ⟨text, d, st, h0, h1, h2, -⟩ := c45_from_file_accepts fs path F rt o s hF.1 hr
  obtain ⟨L, hL⟩ := hp.includes path text d h0 h1
  have hv : Visits fs (some path) (evalDoc fs (some path) [F] (theLoader fs) d) L := by
    unfold evalDoc
    exact .then (visits_fields (fun p => visits_include (visits_loadN hp _) p) d L 1 [] none hL)
      fun x => (Quiet.bind .fresh fun _ => .pure _).visits
  obtain ⟨-, h3, h4⟩ := hv _ _ _ h2
  have hg : Grounded fs F := grounded_of_visits hp hF h0 h1 hL h3 (h4 (by intro k v h; cases h))
  have hgG : Grounded fs G := by
    induction hG with
    | refl => exact hg
    | tail _ h ih => exact ih.inv h
  clear hG
  unfold Grounded at hgG
  have hacc : Acc (Relation.TransGen (fun B A => Includes fs A B)) G := hgG.transGen
  intro hcyc
  have hcyc' : Relation.TransGen (fun B A => Includes fs A B) G G := by
    have := Relation.transGen_swap.2 hcyc
    exact this
  have hirr : ∀ x, Acc (Relation.TransGen (fun B A => Includes fs A B)) x →
      ¬ Relation.TransGen (fun B A => Includes fs A B) x x := by
    intro x hx
    induction hx with
    | intro x _ ih => exact fun h => ih x h h
  exact hirr G hacc hcyc'

end

/-! ## Examples -/

section
attribute [local instance] sampleUnicode

/-- Five files: an object, an object that includes it, a text of array elements, and a cycle of two files. -/
def sampleFiles : FS :=
  files [(c!"f", c!"k: {i: 7}"), (c!"g", c!"h:<\"f\">"), (c!"s", c!"1 2\n3"), (c!"c", c!"\nx:<\"d\">\n"), (c!"d", c!"\ny:<\"c\">\nz: 1")]

def samplePlace : Obj := .mk 0 [.mk c!"m" (.int 2)] none

/-- The place: behind `m: 2` in the object `a`. -/
theorem samplePlace_reads (fs : FS) (h : noFiles.Sub fs) : ReadsAt fs startRt [(c!"z: 1", c!"a")] c!"m: 2" samplePlace := by
  refine readsAt_sub h ?_
  obtain ⟨s1, h1⟩ : ∃ s, fromStr noFiles c!"z: 1" startRt = .ok (.mk 0 [.mk c!"z" (.int 1)] none) s :=
    Res.gives_ok (by decide +kernel)
  obtain ⟨s2, h2⟩ : ∃ s, fromStr noFiles c!"m: 2" startRt = .ok samplePlace s := Res.gives_ok (by decide +kernel)
  obtain ⟨s3, h3⟩ : ∃ s, fromStr noFiles (nest [(c!"z: 1", c!"a")] c!"m: 2") startRt =
      .ok (.mk 1 [.mk c!"z" (.int 1), .mk c!"a" (.obj samplePlace)] none) s :=
    Res.gives_ok (by decide +kernel)
  refine ⟨?_, wellFormed_of_read h2, _, s3, h3, .inside (ps := [.mk c!"z" (.int 1)]) rfl .here⟩
  intro l hl
  rw [List.mem_singleton.1 hl]
  exact ⟨wellFormed_of_read h1, sampleFieldName 'a' (by decide)⟩

theorem sampleBody (c : Char) (h1 : c ≠ '"' := by decide) (h2 : c ≠ '\\' := by decide) : StrBody [c] [c] := .raw h1 h2 .nil

theorem startRt_fine : startRt.Fine := by
  intro k i h
  cases k <;> cases h

theorem sampleLeads (p : Str) (h : (sampleFiles.nodes.map Prod.fst).contains p = true) : Leads sampleFiles p p := by
  have : p ∈ sampleFiles.nodes.map Prod.fst := by simpa using h
  simp only [sampleFiles, files, List.map, List.mem_cons, List.not_mem_nil, or_false] at this
  rcases this with rfl | rfl | rfl | rfl | rfl <;>
    exact ⟨by decide +kernel, ⟨_, rfl⟩, rfl⟩

/-- C52: a text that includes `f` is read without `s` and with it. -/
example : ∃ s', fromStr sampleFiles c!"a: <\"g\">" startRt =
    .ok (.mk 3 [.mk c!"a" (.obj (.mk 2 [.mk c!"h" (.obj (.mk 1 [.mk c!"k" (.obj (.mk 0 [.mk c!"i" (.int 7)] none))] none))]
      none))] none) s' := by
  obtain ⟨s, h⟩ : ∃ s, fromStr (sampleFiles.without c!"s") c!"a: <\"g\">" startRt =
    .ok (.mk 3 [.mk c!"a" (.obj (.mk 2 [.mk c!"h" (.obj (.mk 1 [.mk c!"k" (.obj (.mk 0 [.mk c!"i" (.int 7)] none))] none))]
      none))] none) s := Res.gives_ok (by decide +kernel)
  obtain ⟨s', h', -⟩ := c52_removed_file _ _ _ _ _ _ h
  exact ⟨s', h'⟩

attribute [local irreducible] ReadsAt Denotes Rejected in
/-- C38: the hypotheses about a first include are met by `s` at the place; as `Str` it is its text. -/
example : ∃ p', ReadsAt sampleFiles startRt [(c!"z: 1", c!"a")] (c!"m: 2" ++ c!"\n" ++ c!"y" ++ c!":" ++
      includeText (some .str) c!"s") p' ∧
    p'.pairs = [.mk c!"m" (.int 2), .mk c!"y" (.str c!"1 2\n3")] := by
  obtain ⟨p', h1, h2, -⟩ := c38_str_is_the_text sampleFiles startRt startRt_fine [(c!"z: 1", c!"a")] c!"m: 2" samplePlace
    c!"s" c!"s" c!"s" c!"1 2\n3" (sampleLeads _ rfl) (samplePlace_reads _ (noFiles_sub _)) (sampleBody 's') rfl (by simp)
    c!"y" (sampleFieldName 'y' (by decide)) (by simp [NotNamed, samplePlace, Obj.pairs, Pair.field])
  exact ⟨p', h1, h2⟩

attribute [local irreducible] ReadsAt in
/-- C37: behind `y:<Str "f">` and `w: [1]`, the include `<"f">` is the same string, not an object. -/
example : ∃ q', ReadsAt sampleFiles startRt [(c!"z: 1", c!"a")] (c!"m: 2\ny:<Str \"f\">\nw: [1]" ++ c!"\n" ++ c!"v" ++ c!":" ++
      includeText none c!"f") q' ∧
    q'.pairs = [.mk c!"m" (.int 2), .mk c!"y" (.str c!"k: {i: 7}"), .mk c!"w" (.arr 2 .int [.int 1]),
      .mk c!"v" (.str c!"k: {i: 7}")] := by
  obtain ⟨p', h1, h2, -⟩ := c38_str_is_the_text sampleFiles startRt startRt_fine [(c!"z: 1", c!"a")] c!"m: 2" samplePlace
    c!"f" c!"f" c!"f" c!"k: {i: 7}" (sampleLeads _ rfl) (samplePlace_reads _ (noFiles_sub _)) (sampleBody 'f') rfl (by simp)
    c!"y" (sampleFieldName 'y' (by decide)) (by simp [NotNamed, samplePlace, Obj.pairs, Pair.field])
  let q : Obj := .mk 3 [.mk c!"m" (.int 2), .mk c!"y" (.str c!"k: {i: 7}"), .mk c!"w" (.arr 2 .int [.int 1])] none
  have hq : ReadsAt sampleFiles startRt [(c!"z: 1", c!"a")] c!"m: 2\ny:<Str \"f\">\nw: [1]" q := by
    obtain ⟨s1, g1⟩ : ∃ s, fromStr noFiles c!"z: 1" startRt = .ok (.mk 0 [.mk c!"z" (.int 1)] none) s :=
      Res.gives_ok (by decide +kernel)
    obtain ⟨s2, g2⟩ : ∃ s, fromStr sampleFiles c!"m: 2\ny:<Str \"f\">\nw: [1]" startRt = .ok q s :=
      Res.gives_ok (by decide +kernel)
    obtain ⟨s3, g3⟩ : ∃ s, fromStr sampleFiles (nest [(c!"z: 1", c!"a")] c!"m: 2\ny:<Str \"f\">\nw: [1]") startRt =
        .ok (.mk 4 [.mk c!"z" (.int 1), .mk c!"a" (.obj q)] none) s :=
      Res.gives_ok (by decide +kernel)
    unfold ReadsAt
    refine ⟨?_, wellFormed_of_read g2, _, s3, g3, .inside (ps := [.mk c!"z" (.int 1)]) rfl .here⟩
    intro l hl
    rw [List.mem_singleton.1 hl]
    exact ⟨wellFormed_of_read g1, sampleFieldName 'a' (by decide)⟩
  obtain ⟨q', h3, h4, -⟩ := c37_same_instance sampleFiles startRt [(c!"z: 1", c!"a")] c!"m: 2" samplePlace
    (samplePlace_reads _ (noFiles_sub _)) (some .str) c!"f" c!"f" c!"f" (sampleBody 'f') (sampleLeads _ rfl) c!"y"
    (sampleFieldName 'y' (by decide)) (by simp [NotNamed, samplePlace, Obj.pairs, Pair.field]) p' _ h1 h2 c!"w: [1]"
    (by
      obtain ⟨s2, g2⟩ : ∃ s, fromStr noFiles c!"w: [1]" startRt = .ok (.mk 1 [.mk c!"w" (.arr 0 .int [.int 1])] none) s :=
        Res.gives_ok (by decide +kernel)
      exact wellFormed_of_read g2)
    _ _ q hq rfl (by simp) none c!"f" c!"f" (sampleBody 'f') (sampleLeads _ rfl) c!"v" (sampleFieldName 'v' (by decide))
    (by simp [NotNamed, q, Obj.pairs, Pair.field])
  exact ⟨q', h3, h4⟩

theorem readsEmpty (rt : Rt) : ∃ o s, fromStr noFiles [] rt = .ok o s ∧ NotNamed o.pairs c!"x" ∧ NotNamed o.pairs c!"y" := by
  have h := fromStr_of_eval (fs := noFiles) (text := []) (rt := rt) (d := []) (.nil (.gap .nil)) (Nat.le_refl _)
  obtain ⟨s, h1, -⟩ := SameOutcome.of_ok (o := .mk rt.curId [] none) h
  exact ⟨_, s, h1, by simp [NotNamed, Obj.pairs], by simp [NotNamed, Obj.pairs]⟩

/-- C36: the files `c` and `d` include each other. -/
theorem sampleCycle : EndsInCycle sampleFiles [] c!"c" c!"d" c!"c" := by
  refine .goes (F := c!"c") (G := c!"d") (p := c!"d") (text := c!"\nx:<\"d\">\n") (sampleLeads _ rfl) rfl ?_ (sampleLeads _ rfl)
    (by decide) (.closes (F := c!"d") (G := c!"c") (text := c!"\ny:<\"c\">\nz: 1") (sampleLeads _ rfl) rfl ?_
      (sampleLeads _ rfl) (by decide))
  · refine ⟨[], c!"x", none, c!"d", [], rfl, ?_, sampleFieldName 'x' (by decide), .inl rfl, sampleBody 'd', ⟨[], .nil (.gap .nil)⟩⟩
    obtain ⟨o, s, h1, h2, -⟩ := readsEmpty startRt
    exact ⟨_, o, s, startRt_fine, h1, h2⟩
  · obtain ⟨s1, g1⟩ : ∃ s, fromStr noFiles c!"z: 1" startRt = .ok (.mk 0 [.mk c!"z" (.int 1)] none) s :=
      Res.gives_ok (by decide +kernel)
    refine ⟨[], c!"y", none, c!"c", c!"z: 1", rfl, ?_, sampleFieldName 'y' (by decide), .inl rfl, sampleBody 'c',
      wellFormed_of_read g1⟩
    obtain ⟨o, s, h1, -, h2⟩ := readsEmpty startRt
    exact ⟨_, o, s, startRt_fine, h1, h2⟩

example : ∃ l c, fromFile sampleFiles c!"c" startRt = .err ⟨some c!"d", .cyclicInclude c!"c" l c⟩ :=
  c36_from_file_cycle _ _ _ _ sampleCycle _ startRt_fine

/-- A file that includes another. -/
def plainFiles : FS := files [(c!"g", c!"h:<\"f\">"), (c!"f", [])]

theorem plainFiles_plain : plainFiles.Plain := by
  have hone : ∀ path A, Leads plainFiles path A → path = A := by
    rintro path A ⟨h, -⟩
    have := canon_of_resolve h
    simp only [plainFiles, files] at this
    split at this
    · exact Option.some.inj this
    · cases this
  refine ⟨?_, fun path path' p A h1 h2 => by rw [hone _ _ h1, hone _ _ h2]⟩
  intro path text d h hd
  have h1 : text = c!"h:<\"f\">" ∨ text = [] := by
    by_cases h2 : path = c!"g"
    · subst h2
      left
      exact (Except.ok.inj h).symm
    · by_cases h3 : path = c!"f"
      · subst h3
        right
        exact (Except.ok.inj h).symm
      · have : plainFiles.resolve path = none := by
          unfold FS.resolve
          split
          · simp only [plainFiles, files, List.any, Bool.or_false]
            rw [if_neg (by simp; exact ⟨fun h => h2 h.symm, fun h => h3 h.symm⟩)]
          · rfl
        simp [FS.read, this] at h
  rcases h1 with rfl | rfl
  · have h2 := spOne (.field (sampleFieldName 'h' (by decide))) (spIncl (k := none) (sampleBody 'f'))
    cases c49_one_document _ _ _ hd h2
    exact ⟨_, rfl⟩
  · cases c49_one_document _ _ _ hd (.nil (.gap .nil))
    exact ⟨_, rfl⟩

example : ¬ Relation.TransGen (Includes plainFiles) c!"g" c!"g" := by
  obtain ⟨s, h⟩ : ∃ s, fromFile plainFiles c!"g" startRt = .ok (.mk 1 [.mk c!"h" (.obj (.mk 0 [] none))] none) s :=
    Res.gives_ok (by decide +kernel)
  exact c36_no_cycle plainFiles plainFiles_plain c!"g" c!"g" ⟨by decide +kernel, ⟨_, rfl⟩, rfl⟩ startRt _ s h _ .refl

end

end Over
