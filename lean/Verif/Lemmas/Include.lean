import Verif.Lemmas.Carry

/-! # Includes at a place -/

namespace Over

/-! ## Keywords -/

theorem keywordId_eq (k : IncKind) (st : ESt) : EM.keywordId k st = match st.rt.keyword k with
    | some i => .ok (i, st)
    | none => .ok (st.rt.curId, { st with rt := st.rt.after (match k with
      | .obj => { { st.rt.toShared with curId := st.rt.curId + 1 } with objS := some st.rt.curId }
      | .str => { { st.rt.toShared with curId := st.rt.curId + 1 } with strS := some st.rt.curId }
      | .arr => { { st.rt.toShared with curId := st.rt.curId + 1 } with arrS := some st.rt.curId }
      | .tup => { { st.rt.toShared with curId := st.rt.curId + 1 } with tupS := some st.rt.curId }) }) := by
  cases k <;> rfl

theorem Shared.MovesOn.refl (s : Shared) : s.MovesOn s :=
  ⟨Nat.le_refl _, fun _ _ h => h, fun _ _ h h' => by rw [h] at h'; cases h'⟩

theorem Shared.MovesOn.fine {s s' : Shared} (h : s.MovesOn s') (hf : s.Fine) : s'.Fine := by
  intro k i hk
  cases hs : s.keyword k with
  | none =>
    obtain ⟨-, h2, h3⟩ := h.new k i hs hk
    exact ⟨h2, h3⟩
  | some j =>
    have h1 := h.keeps k j hs
    rw [hk] at h1
    cases h1
    obtain ⟨h2, h3⟩ := hf k i hs
    refine ⟨Nat.lt_of_lt_of_le h2 h.counter, fun k' hk' => ?_⟩
    cases hs' : s.keyword k' with
    | none =>
      have := (h.new k' i hs' hk').1
      omega
    | some j' =>
      have h4 := h.keeps k' j' hs'
      rw [hk'] at h4
      cases h4
      exact h3 k' hs'

/-- What this thread and then the others do, in a good state. -/
theorem Shared.MovesOn.trans {s s' s'' : Shared} (h : s.MovesOn s') (h' : s'.MovesOn s'') (hf : s.Fine) :
    s.MovesOn s'' := by
  refine ⟨h.counter.trans h'.counter, fun k i hk => h'.keeps k i (h.keeps k i hk), ?_⟩
  intro k i hk hk'
  have hf'' := h'.fine (h.fine hf)
  obtain ⟨h4, h5⟩ := hf'' k i hk'
  refine ⟨?_, h4, h5⟩
  cases hs : s'.keyword k with
  | none =>
    have := (h'.new k i hs hk').1
    exact h.counter.trans this
  | some j =>
    have h1 := h'.keeps k j hs
    rw [hk'] at h1
    cases h1
    exact (h.new k i hk hs).1

/-- The effect of asking for a keyword object. -/
structure KwStep (k : IncKind) (st : ESt) (i : Nat) (st' : ESt) : Prop where
  cache : st'.cache = st.cache
  globals : st'.globals = st.globals
  le : st.rt.curId ≤ st'.rt.curId
  now : st'.rt.keyword k = some i
  keeps : ∀ k' j, st.rt.keyword k' = some j → st'.rt.keyword k' = some j
  fine : st.rt.Fine → st'.rt.Fine

theorem keywordId_step (k : IncKind) (st : ESt) : ∃ i st', EM.keywordId k st = .ok (i, st') ∧ KwStep k st i st' := by
  rw [keywordId_eq]
  cases h : st.rt.keyword k with
  | some i => exact ⟨i, st, rfl, rfl, rfl, Nat.le_refl _, h, fun _ _ h => h, fun h => h⟩
  | none =>
    have hm := fun s => st.rt.moveOn st.rt.time s
    refine ⟨_, _, rfl, rfl, rfl, ?_, ?_, ?_, ?_⟩
    · refine Nat.le_trans ?_ (hm _).counter
      cases k <;> exact Nat.le_succ _
    · refine (hm _).keeps k _ ?_
      cases k <;> rfl
    · intro k' j hj
      refine (hm _).keeps k' j ?_
      cases k <;> cases k' <;> first | (rw [h] at hj; cases hj) | exact hj
    · intro hf
      refine (hm _).fine ?_
      intro k1 j hj
      by_cases hk : k1 = k
      · subst hk
        have e : j = st.rt.curId := by cases k1 <;> (cases hj; rfl)
        subst e
        refine ⟨by cases k1 <;> exact Nat.lt_succ_self _, ?_⟩
        intro k' hk'
        by_contra hne
        have : st.rt.keyword k' = some st.rt.curId := by
          cases k1 <;> cases k' <;> first | exact absurd rfl hne | exact hk'
        have := (hf k' _ this).1
        omega
      · have hj' : st.rt.keyword k1 = some j := by
          cases k <;> cases k1 <;> first | exact absurd rfl hk | exact hj
        obtain ⟨h4, h5⟩ := hf k1 j hj'
        refine ⟨by cases k <;> exact Nat.lt_succ_of_lt h4, ?_⟩
        intro k' hk'
        by_cases hk2 : k' = k
        · subst hk2
          have e : j = st.rt.curId := by cases k' <;> (cases hk'; rfl)
          omega
        · refine h5 k' ?_
          cases k <;> cases k' <;> first | exact absurd rfl hk2 | exact hk'

theorem Rt.next_moves (rt : Rt) : ∃ s : Shared, s.MovesOn rt.next.toShared ∧ s.curId = rt.curId + 1 ∧
    ∀ k, s.keyword k = rt.keyword k :=
  ⟨_, rt.moveOn rt.time _, rfl, fun k => by cases k <;> rfl⟩

theorem Rt.next_fine {rt : Rt} (h : rt.Fine) : rt.next.Fine := by
  obtain ⟨s, h1, h2, h3⟩ := rt.next_moves
  refine h1.fine fun k i hk => ?_
  rw [h3] at hk
  obtain ⟨h4, h5⟩ := h k i hk
  exact ⟨by omega, fun k' hk' => h5 k' (by rw [← h3]; exact hk')⟩

theorem Rt.next_keyword {rt : Rt} {k : IncKind} {i : Nat} (h : rt.keyword k = some i) : rt.next.keyword k = some i := by
  obtain ⟨s, h1, -, h3⟩ := rt.next_moves
  exact h1.keeps k i (by rw [h3]; exact h)

theorem Rt.next_lt (rt : Rt) : rt.curId < rt.next.curId := by
  obtain ⟨s, h1, h2, -⟩ := rt.next_moves
  have := h1.counter
  omega

/-- Keyword objects stay what they are, in a good state. -/
def fineInv : EvalInv Unit (fun _ => True) where
  I σ := σ.1.rt.Fine
  R σ τ := (∀ k i, σ.1.rt.keyword k = some i → τ.1.rt.keyword k = some i) ∧ σ.1.rt.curId ≤ τ.1.rt.curId
  V _ _ := True
  refl σ := ⟨fun _ _ h => h, Nat.le_refl _⟩
  trans h1 h2 := ⟨fun k i h => h2.1 k i (h1.1 k i h), h1.2.trans h2.2⟩
  mono _ _ _ _ := trivial
  null _ := trivial
  bool _ _ := trivial
  int _ _ := trivial
  frac _ _ := trivial
  str _ _ := trivial
  ofArr _ _ _ _ := trivial
  ofTup _ _ _ _ := trivial
  ofObj _ _ _ _ := trivial
  newArr {σ} _ _ hI _ := ⟨(), Rt.next_fine hI, ⟨fun _ _ h => Rt.next_keyword h, Nat.le_of_lt σ.1.rt.next_lt⟩, trivial⟩
  newTup {σ} _ _ hI _ := ⟨(), Rt.next_fine hI, ⟨fun _ _ h => Rt.next_keyword h, Nat.le_of_lt σ.1.rt.next_lt⟩, trivial⟩
  newObj {σ} _ _ hI _ _ := ⟨(), Rt.next_fine hI, ⟨fun _ _ h => Rt.next_keyword h, Nat.le_of_lt σ.1.rt.next_lt⟩, trivial⟩
  keyword {σ} k hI := by
    intro i st' h
    obtain ⟨j, st2, h1, h2⟩ := keywordId_step k σ.1
    rw [h1] at h
    cases h
    exact ⟨(), h2.fine hI, ⟨h2.keeps, h2.le⟩, trivial⟩
  global _ _ := trivial
  setGlobal _ _ _ hI hr _ := ⟨hI, hr, fun _ _ => trivial⟩

theorem fineFiles : fineInv.Files where
  enter h := h
  leave _ h2 h3 := ⟨h2, h3, fun _ _ => trivial⟩
  store h _ := ⟨h, fineInv.refl _, trivial⟩
  reuse _ _ := trivial

section
variable [Unicode]

theorem fine_fields {fs : FS} {n : Nat} {file : Option Str} {stack : List Str} {fds : List Field} {d : Nat}
    {ps : List Pair} {par : Option Obj} {st st' : ESt} {b : List Pair × Option Obj}
    (h : evalFields fs file stack (loadN fs n) fds d ps par st = .ok (b, st')) (hf : st.rt.Fine) : st'.rt.Fine := by
  obtain ⟨_, h1, -⟩ := fineInv.evalFields_good (EvalInv.includes_of_load fineFiles (EvalInv.loadN_good fineFiles fs n)) fds d ps par
    (st, ()) hf (fun _ _ => trivial) (fun _ _ => trivial) (fun _ _ => trivial) _ _ h
  exact h1

/-! ## The include texts -/

/-- The tree of an include. -/
def inclExpr : Option IncKind → Str → Expr
  | none, p => .mk (.incl (.mk (.str p) [])) []
  | some k, p => .mk (.inclAs (.mk (.name k.word) []) (.mk (.str p) [])) []

theorem kindWord_name (k : IncKind) : VarName k.word := by
  have key : ∀ c : Char, isAsciiAlpha c = true → isAlphabetic c = true := by
    intro c h
    simp [isAlphabetic, h]
  cases k <;> exact ⟨_, _, rfl, .inl (.inl (key _ (by decide))), by
    intro d hd
    refine .inl (key d ?_)
    revert d
    decide⟩

theorem spIncl {k : Option IncKind} {b p : Str} (hb : StrBody p b) : SpExpr (inclExpr k p) (includeText k b) := by
  cases k with
  | none => exact spInclude hb
  | some k =>
    have h1 : SpExpr (.mk (.str p) []) ('"' :: (b ++ ['"']) ++ []) := .mk (.str hb) .nil
    have h2 := SpItems.cons (eof := false) (g := [' ']) (.ws (by decide) .nil) h1 (.nil (show Gap [] from .nil)) (.inl rfl)
    have h3 := SpItems.cons (eof := false) .nil (spVar (kindWord_name k)) h2 (.inr ⟨' ', _, rfl, .inl (by decide)⟩)
    have h4 := SpExpr.mk (.inclAs h3) .nil
    simpa [inclExpr, includeText] using h4

omit [Unicode] in
theorem evalName_word (file : Option Str) (ps : List Pair) (k : IncKind) :
    evalName file ps k.word = (do let i ← EM.keywordId k; pure (.obj (.mk i [] none))) := by
  cases k <;> rfl

omit [Unicode] in
/-- Recognising a keyword object. -/
theorem evalKeyword_known {file : Option Str} {k : IncKind} {i : Nat} {st : ESt} (h : st.rt.keyword k = some i) :
    ∃ kk st', evalKeyword file (.obj (.mk i [] none)) st = .ok (some kk, st') ∧ st'.cache = st.cache ∧
      st'.globals = st.globals ∧ (st.rt.Fine → kk = k ∧ st'.rt.Fine) := by
  obtain ⟨i1, s1, e1, f1⟩ := keywordId_step .obj st
  obtain ⟨i2, s2, e2, f2⟩ := keywordId_step .str s1
  obtain ⟨i3, s3, e3, f3⟩ := keywordId_step .arr s2
  obtain ⟨i4, s4, e4, f4⟩ := keywordId_step .tup s3
  simp only [evalKeyword]
  rw [EM.bind_ok e1]
  have step : ∀ {k' : IncKind} {s s' : ESt} {j : Nat}, KwStep k' s j s' → s.rt.keyword k = some i → s'.rt.keyword k = some i := by
    intro k' s s' j hs h
    exact hs.keeps k i h
  have h1 := step f1 h
  have h2 := step f2 h1
  have h3 := step f3 h2
  have h4 := step f4 h3
  have hit : ∀ {k' : IncKind} {s s' : ESt} {j : Nat}, KwStep k' s j s' → s'.rt.keyword k = some i → i = j → s'.rt.Fine →
      k' = k := by
    intro k' s s' j hs hk hij hf
    exact (hf k i hk).2 k' (hij ▸ hs.now)
  by_cases c1 : i = i1
  · rw [if_pos (show (Obj.mk i [] none).id = i1 from c1)]
    exact ⟨_, _, rfl, f1.cache, f1.globals, fun hf => ⟨hit f1 h1 c1 (f1.fine hf), f1.fine hf⟩⟩
  rw [if_neg (show ¬ (Obj.mk i [] none).id = i1 from c1), EM.bind_ok e2]
  by_cases c2 : i = i2
  · rw [if_pos (show (Obj.mk i [] none).id = i2 from c2)]
    exact ⟨_, _, rfl, f2.cache.trans f1.cache, f2.globals.trans f1.globals,
      fun hf => ⟨hit f2 h2 c2 (f2.fine (f1.fine hf)), f2.fine (f1.fine hf)⟩⟩
  rw [if_neg (show ¬ (Obj.mk i [] none).id = i2 from c2), EM.bind_ok e3]
  by_cases c3 : i = i3
  · rw [if_pos (show (Obj.mk i [] none).id = i3 from c3)]
    exact ⟨_, _, rfl, f3.cache.trans (f2.cache.trans f1.cache), f3.globals.trans (f2.globals.trans f1.globals),
      fun hf => ⟨hit f3 h3 c3 (f3.fine (f2.fine (f1.fine hf))), f3.fine (f2.fine (f1.fine hf))⟩⟩
  rw [if_neg (show ¬ (Obj.mk i [] none).id = i3 from c3), EM.bind_ok e4]
  by_cases c4 : i = i4
  · rw [if_pos (show (Obj.mk i [] none).id = i4 from c4)]
    exact ⟨_, _, rfl, f4.cache.trans (f3.cache.trans (f2.cache.trans f1.cache)),
      f4.globals.trans (f3.globals.trans (f2.globals.trans f1.globals)),
      fun hf => ⟨hit f4 h4 c4 (f4.fine (f3.fine (f2.fine (f1.fine hf)))), f4.fine (f3.fine (f2.fine (f1.fine hf)))⟩⟩
  exfalso
  cases k with
  | obj => rw [f1.now] at h1; cases h1; exact c1 rfl
  | str => rw [f2.now] at h2; cases h2; exact c2 rfl
  | arr => rw [f3.now] at h3; cases h3; exact c3 rfl
  | tup => rw [f4.now] at h4; cases h4; exact c4 rfl

omit [Unicode] in
/-- Evaluating an include text. -/
theorem evalIncl (fs : FS) (file : Option Str) (stack : List Str) (load : Loader) (k : Option IncKind) (p : Str)
    (ps : List Pair) (d : Nat) (st : ESt) : ∃ kk st1, st1.cache = st.cache ∧ st1.globals = st.globals ∧
      (st.rt.Fine → kk = k.getD .obj ∧ st1.rt.Fine) ∧ (k = none → st1 = st ∧ kk = .obj) ∧
      evalExpr fs file stack load (inclExpr k p) ps d st =
        if d + 1 > 64 then .error (.sem file .maxDepth) else evalInclude fs file stack load kk p st1 := by
  have hstr : ∀ st, evalExpr fs file stack load (.mk (.str p) []) ps (d + 1) st = .ok (.str p, st) := by
    intro st
    rw [evalExpr_term]; simp only [evalTerm]; rfl
  have hd : ∀ (e : EM Value), ((do depthCheck file (d + 1); e) : EM Value) st =
      if d + 1 > 64 then .error (.sem file .maxDepth) else e st := by
    intro e
    unfold depthCheck
    by_cases h : d + 1 > 64
    · rw [if_pos h, if_pos h]; rfl
    · rw [if_neg h, if_neg h]; rfl
  cases k with
  | none =>
    refine ⟨.obj, st, rfl, rfl, fun h => ⟨rfl, h⟩, fun _ => ⟨rfl, rfl⟩, ?_⟩
    rw [inclExpr, evalExpr_term]
    simp only [evalTerm]
    rw [hd, EM.bind_ok (hstr st)]
    rfl
  | some k =>
    obtain ⟨i, s1, e1, f1⟩ := keywordId_step k st
    obtain ⟨kk, s2, e2, c2, g2, f2⟩ := evalKeyword_known (file := file) f1.now
    have hname : evalExpr fs file stack load (.mk (.name k.word) []) ps (d + 1) st = .ok (.obj (.mk i [] none), s1) := by
      rw [evalExpr_term]
      simp only [evalTerm, evalName_word]
      rw [EM.bind_ok e1]
      rfl
    refine ⟨kk, s2, c2.trans f1.cache, g2.trans f1.globals, fun h => f2 (f1.fine h), (fun h => by cases h), ?_⟩
    rw [inclExpr, evalExpr_term]
    simp only [evalTerm]
    rw [hd, EM.bind_ok hname, EM.bind_ok e2]
    simp only []
    rw [EM.bind_ok (hstr s2)]

end

end Over
