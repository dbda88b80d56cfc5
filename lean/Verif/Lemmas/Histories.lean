import Verif.Lemmas.Realize
import Verif.Lemmas.Session
import Verif.Lemmas.TwoRuns
import Verif.Spec.Histories

/-! # Histories of calls in memory -/

namespace Over

section
variable [Unicode]

/-! ## A parse moves the process-wide state on -/

omit [Unicode] in
theorem keywordId_moves {k : IncKind} {st st' : ESt} {i : Nat} (h : EM.keywordId k st = .ok (i, st')) (hf : st.rt.Fine) :
    st.rt.toShared.MovesOn st'.rt.toShared := by
  rw [keywordId_eq] at h
  cases hk : st.rt.keyword k with
  | some j => rw [hk] at h; cases h; exact .refl _
  | none =>
    rw [hk] at h
    cases h
    refine Shared.MovesOn.trans ?_ (st.rt.moveOn st.rt.time _) hf
    refine ⟨?_, ?_, ?_⟩
    · cases k <;> exact Nat.le_succ _
    · intro k' j hj
      cases k <;> cases k' <;> first | (rw [hk] at hj; cases hj) | exact hj
    · intro k' j hn hj
      have e : k' = k := by
        by_contra hne
        have : st.rt.keyword k' = some j := by
          cases k <;> cases k' <;> first | exact absurd rfl hne | exact hj
        rw [hn] at this
        cases this
      subst e
      have e : j = st.rt.curId := by cases k' <;> (cases hj; rfl)
      subst e
      refine ⟨Nat.le_refl _, by cases k' <;> exact Nat.lt_succ_self _, ?_⟩
      intro k2 h2
      by_contra hne
      have : st.rt.keyword k2 = some st.rt.curId := by
        cases k' <;> cases k2 <;> first | exact absurd rfl hne | exact h2
      have := (hf k2 _ this).1
      omega

omit [Unicode] in
theorem next_moved {rt : Rt} : rt.Fine → rt.toShared.MovesOn rt.next.toShared ∧ rt.next.Fine :=
  fun hf => ⟨Rt.next_movesOn' hf, Rt.next_fine hf⟩

/-- The process-wide state moves on. -/
def movesInv : EvalInv Unit (fun _ => True) where
  I σ := σ.1.rt.Fine
  R σ τ := σ.1.rt.Fine → σ.1.rt.toShared.MovesOn τ.1.rt.toShared ∧ τ.1.rt.Fine
  V _ _ := True
  refl σ hf := ⟨.refl _, hf⟩
  trans h1 h2 hf := ⟨(h1 hf).1.trans (h2 (h1 hf).2).1 hf, (h2 (h1 hf).2).2⟩
  mono _ _ _ _ := trivial
  null _ := trivial
  bool _ _ := trivial
  int _ _ := trivial
  frac _ _ := trivial
  str _ _ := trivial
  ofArr _ _ _ _ := trivial
  ofTup _ _ _ _ := trivial
  ofObj _ _ _ _ := trivial
  newArr {σ} _ _ hI _ := ⟨(), Rt.next_fine hI, next_moved, trivial⟩
  newTup {σ} _ _ hI _ := ⟨(), Rt.next_fine hI, next_moved, trivial⟩
  newObj {σ} _ _ hI _ _ := ⟨(), Rt.next_fine hI, next_moved, trivial⟩
  keyword {σ} k hI := by
    intro i st' h
    have hm := keywordId_moves h hI
    exact ⟨(), hm.fine hI, fun _ => ⟨hm, hm.fine hI⟩, trivial⟩
  global _ _ := trivial
  setGlobal _ _ _ hI hr _ := ⟨hI, hr, fun _ _ => trivial⟩

omit [Unicode] in
theorem movesFiles : movesInv.Files where
  enter h := h
  leave _ h2 h3 := ⟨h2, h3, fun _ _ => trivial⟩
  store h _ := ⟨h, movesInv.refl _, trivial⟩
  reuse _ _ := trivial

theorem meaning_moves {fs : FS} {file : Option Str} {stack : List Str} {d : List Field} {rt : Rt} {o : Obj} {st : ESt}
    (hf : rt.Fine) (h : meaning fs file stack d rt = .ok (o, st)) : rt.toShared.MovesOn st.rt.toShared := by
  obtain ⟨_, -, h2, -⟩ := movesInv.evalDoc_good (EvalInv.includes_of_load movesFiles (EvalInv.loadN_good movesFiles fs _)) d
    (⟨[], [], rt⟩, ()) hf (fun _ _ => trivial) o st h
  exact (h2 hf).1

/-! ## The frame of a call -/

/-- What a call may return. -/
def KnownTo (s : Session) (c : Value) : Prop :=
  c ∈ Value.containersL s.pool ∨ ∃ k i, s.shared.keyword k = some i ∧ c = keywordObj i

omit [Unicode] in
theorem made_moves (s : Session) (v : Value) : s.shared.MovesOn (s.made v).shared :=
  ⟨Nat.le_succ _, fun k i h => by cases k <;> exact h, fun k i h h' => by
    have : s.shared.keyword k = some i := by cases k <;> exact h'
    rw [h] at this; cases this⟩

/-- `s'` is `s` moved on, with `new` values, made of what was known and of new containers. -/
structure Frame (s s' : Session) (new : List Value) : Prop where
  pool : s'.pool = new ++ s.pool
  moves : s.shared.MovesOn s'.shared
  known : ∀ c ∈ Value.containersL new, c.cid < s.shared.curId → KnownTo s c

omit [Unicode] in
theorem Frame.ofGot {s : Session} {v : Value} (h : ∀ c ∈ v.containers, c ∈ Value.containersL s.pool) : Frame s (s.got v) [v] where
  pool := rfl
  moves := .refl _
  known c hc _ := .inl (h c (by simpa [Value.containersL] using hc))

omit [Unicode] in
theorem Frame.ofMade {s : Session} {v : Value} (hi : v.cid = s.shared.curId) (hc : v.containers = v :: v.containers.tail)
    (h : ∀ c ∈ v.containers.tail, c ∈ Value.containersL s.pool) : Frame s (s.made v) [v] where
  pool := rfl
  moves := made_moves s v
  known c hm hl := by
    have hm' : c ∈ v.containers := by simpa [Value.containersL] using hm
    rw [hc] at hm'
    rcases List.mem_cons.1 hm' with rfl | hm'
    · omega
    · exact .inl (h c hm')

omit [Unicode] in
theorem sub_of_mem {s : Session} {v : Value} (h : v ∈ s.pool) : ∀ c ∈ v.containers, c ∈ Value.containersL s.pool :=
  fun _ hc => containersL_mem.2 ⟨v, h, hc⟩

omit [Unicode] in
theorem sub_of_elem {vs ws : List Value} (h : ∀ v ∈ vs, v ∈ ws) : ∀ c ∈ Value.containersL vs, c ∈ Value.containersL ws := by
  intro c hc
  obtain ⟨v, hv, hc⟩ := containersL_mem.1 hc
  exact containersL_mem.2 ⟨v, h v hv, hc⟩

omit [Unicode] in
theorem sub_of_part {v w : Value} {ws : List Value} (h : ∀ c ∈ v.containers, c ∈ Value.containersL ws) (hw : w ∈ v.parts) :
    ∀ c ∈ w.containers, c ∈ Value.containersL ws := by
  intro c hc
  have hv : v.IsCont := by
    cases v <;> trivial
  refine h c ?_
  rw [containers_cont hv]
  exact List.mem_cons_of_mem _ (containersL_mem.2 ⟨w, hw, hc⟩)

omit [Unicode] in
theorem sub_of_field {o : Obj} {p : Pair} {ws : List Value} (h : ∀ c ∈ (Value.obj o).containers, c ∈ Value.containersL ws)
    (hp : p ∈ o.pairs) : ∀ c ∈ p.value.containers, c ∈ Value.containersL ws := by
  obtain ⟨i, ps, par⟩ := o
  exact sub_of_part h (by simp only [Value.parts]; exact List.mem_append_left _ (List.mem_map_of_mem hp))

omit [Unicode] in
theorem sub_of_parent {o q : Obj} {ws : List Value} (h : ∀ c ∈ (Value.obj o).containers, c ∈ Value.containersL ws)
    (hp : o.parent = some q) : ∀ c ∈ (Value.obj q).containers, c ∈ Value.containersL ws := by
  obtain ⟨i, ps, par⟩ := o
  cases hp
  exact sub_of_part h (by simp [Value.parts])

omit [Unicode] in
theorem Frame.madeArr {s : Session} {t : Ty} {vs : List Value} (hvs : ∀ v ∈ vs, v ∈ s.pool) :
    Frame s (s.made (.arr s.shared.curId t vs)) [.arr s.shared.curId t vs] :=
  .ofMade rfl rfl (by simp only [Value.containers, List.tail_cons]; exact sub_of_elem hvs)

omit [Unicode] in
theorem Frame.madeTup {s : Session} {t : List Ty} {vs : List Value} (hvs : ∀ v ∈ vs, v ∈ s.pool) :
    Frame s (s.made (.tup s.shared.curId t vs)) [.tup s.shared.curId t vs] :=
  .ofMade rfl rfl (by simp only [Value.containers, List.tail_cons]; exact sub_of_elem hvs)

omit [Unicode] in
theorem Frame.madeObj {s : Session} {ps : List Pair} {par : Option Obj} (hps : ∀ p ∈ ps, p.value ∈ s.pool)
    (hpar : ∀ q, par = some q → Value.obj q ∈ s.pool) :
    Frame s (s.made (.obj (.mk s.shared.curId ps par))) [.obj (.mk s.shared.curId ps par)] := by
  refine .ofMade rfl rfl ?_
  simp only [Value.containers, Obj.containers, List.tail_cons]
  intro c hc
  rcases List.mem_append.1 hc with hc | hc
  · obtain ⟨p, hp, hc⟩ := pairContainersL_mem.1 hc
    exact sub_of_mem (hps p hp) c hc
  · cases par with
    | none => simp [Obj.containersP] at hc
    | some q => exact sub_of_mem (hpar q rfl) c (by simpa [Obj.containersP, Value.containers] using hc)

theorem Frame.ofParse {s : Session} {fs : FS} {file : Option Str} {stack : List Str} {d : List Field} {rt : Rt} {o : Obj} {st : ESt}
    {sh : Shared} (hf : s.shared.Fine) (hrt : rt.toShared = s.shared) (hm : meaning fs file stack d rt = .ok (o, st))
    (hst : sh = st.rt.toShared) : Frame s ⟨sh, .obj o :: s.pool⟩ [.obj o] := by
  subst hst
  have hf' : rt.Fine := by unfold Rt.Fine; rw [hrt]; exact hf
  have hmv := meaning_moves hf' hm
  rw [hrt] at hmv
  refine ⟨rfl, hmv, ?_⟩
  intro c hc hl
  obtain ⟨r, h1, h2⟩ := reg_meaning hf' hm
  have hr := h2 c (by simpa [Value.containersL] using hc)
  have hcur : rt.curId = s.shared.curId := by rw [← hrt]
  rcases h1.old _ _ hr with h3 | ⟨k, h3, h4⟩
  · omega
  · right
    refine ⟨k, c.cid, ?_, h4⟩
    cases hk : s.shared.keyword k with
    | none => have := (hmv.new k _ hk h3).1; omega
    | some j =>
      have := hmv.keeps k j hk
      rw [← this]; exact h3

theorem ApiStep.frame {s s' : Session} (h : ApiStep s s') (hf : s.shared.Fine) : ∃ new, Frame s s' new := by
  cases h with
  | others m => exact ⟨[], rfl, m, by simp [Value.containersL]⟩
  | null => exact ⟨_, .ofGot (by simp [Value.containers])⟩
  | bool b => exact ⟨_, .ofGot (by simp [Value.containers])⟩
  | int i => exact ⟨_, .ofGot (by simp [Value.containers])⟩
  | frac q => exact ⟨_, .ofGot (by simp [Value.containers])⟩
  | str x => exact ⟨_, .ofGot (by simp [Value.containers])⟩
  | arrEmpty => exact ⟨_, .madeArr (t := .any) (vs := []) (by simp)⟩
  | @arr vs a hvs ha =>
    have h1 := (c05_from_values_result _ vs a ha).1
    have hid : a.id = s.shared.curId := by
      unfold Arr.fromValues at ha
      split at ha <;> cases ha
      rfl
    obtain ⟨i, t, ws⟩ := a
    simp only at h1 hid
    subst h1 hid
    exact ⟨_, .madeArr hvs⟩
  | @arrUnchecked vs t hvs hne hty => exact ⟨_, .madeArr hvs⟩
  | @tup vs hvs => exact ⟨_, .madeTup hvs⟩
  | objEmpty => exact ⟨_, .madeObj (by simp) (by simp)⟩
  | obj hps hpar ho =>
    obtain ⟨h1, rfl⟩ := (c13_from_pairs_ok _ _ _ _).1 ho
    exact ⟨_, .madeObj hps hpar⟩
  | objUnchecked hps hpar hn => exact ⟨_, .madeObj hps hpar⟩
  | @objMacro es o hes ho =>
    obtain ⟨h1, h2, h3⟩ := c15_try_obj s.shared.curId es
    have hps : ∀ p ∈ (es.filter (fun e => decide (e.1 ≠ c!"^"))).map (fun e => Pair.mk e.1 e.2), p.value ∈ s.pool := by
      intro p hp
      obtain ⟨e, he, rfl⟩ := List.mem_map.1 hp
      exact hes e (List.mem_of_mem_filter he)
    rcases List.eq_nil_or_concat (es.filter (fun e : Str × Value => decide (e.1 = c!"^"))) with h | ⟨l, ⟨f, v⟩, h⟩
    · rw [h1 h] at ho
      obtain ⟨h4, rfl⟩ := (c13_from_pairs_ok _ _ _ _).1 ho
      exact ⟨_, .madeObj hps (by simp)⟩
    · rw [List.concat_eq_append] at h
      by_cases hq : ∃ q, v = .obj q
      · obtain ⟨q, rfl⟩ := hq
        rw [h2 l f q h] at ho
        obtain ⟨h4, rfl⟩ := (c13_from_pairs_ok _ _ _ _).1 ho
        refine ⟨_, .madeObj hps ?_⟩
        intro q' hq'
        cases hq'
        exact hes (f, .obj q) (List.mem_of_mem_filter (p := fun e : Str × Value => decide (e.1 = c!"^")) (by rw [h]; simp))
      · rw [h3 l f v h (fun q hv => hq ⟨q, hv⟩)] at ho
        cases ho
  | @arrGet a i v ha hg =>
    refine ⟨_, .ofGot (sub_of_part (sub_of_mem ha) ?_)⟩
    unfold Arr.get at hg
    split at hg
    · cases hg
    · split at hg
      · cases hg
        exact List.mem_of_getElem? ‹_›
      · cases hg
  | @arrIter a v ha hv => exact ⟨_, .ofGot (sub_of_part (sub_of_mem ha) hv)⟩
  | @tupGet a i v ha hg =>
    refine ⟨_, .ofGot (sub_of_part (sub_of_mem ha) ?_)⟩
    unfold Tup.get at hg
    split at hg
    · cases hg
    · split at hg
      · cases hg
        exact List.mem_of_getElem? ‹_›
      · cases hg
  | @tupIter a v ha hv => exact ⟨_, .ofGot (sub_of_part (sub_of_mem ha) hv)⟩
  | objGet ho hg =>
    exact ⟨_, .ofGot (obj_get_closed (P := fun v => ∀ c ∈ v.containers, c ∈ Value.containersL s.pool)
      (fun o p => sub_of_field) (fun o q => sub_of_parent) (sub_of_mem ho) hg)⟩
  | @objSource o o' f v ho hg =>
    obtain ⟨h1, h2⟩ := getWithSource_closed (P := fun v => ∀ c ∈ v.containers, c ∈ Value.containersL s.pool)
      (fun o p => sub_of_field) (fun o q => sub_of_parent) o f (sub_of_mem ho) v o' hg
    refine ⟨[.obj o', v], rfl, .refl _, ?_⟩
    intro c hc _
    simp only [Value.containersL, List.append_nil, List.mem_append] at hc
    rcases hc with hc | hc
    · exact .inl (h2 c hc)
    · exact .inl (h1 c hc)
  | objParent ho hq => exact ⟨_, .ofGot (sub_of_parent (sub_of_mem ho) hq)⟩
  | objIter ho hp => exact ⟨_, .ofGot (sub_of_field (sub_of_mem ho) hp)⟩
  | getFrac hv hq => exact ⟨_, .ofGot (by simp [Value.containers])⟩
  | @fromStr fs text rt o st hrt hr =>
    obtain ⟨d, st', -, h2, h3⟩ := c45_from_str_accepts fs text rt o st hr
    exact ⟨_, .ofParse hf hrt h2 (by rw [h3])⟩
  | @fromFile fs path rt o st hrt hr =>
    cases hrd : fs.read path with
    | error m => simp [Over.fromFile, hrd] at hr
    | ok contents =>
      obtain ⟨full, hp⟩ := read_resolve hrd
      obtain ⟨_, d, st', -, -, h2, h3⟩ := c45_from_file_accepts fs path full rt o st hp hr
      exact ⟨_, .ofParse hf hrt h2 (by rw [h3])⟩

/-! ## Tidiness -/

omit [Unicode] in
theorem wellTyped_containers : (∀ v : Value, WellTyped v → ∀ id ts ws, Value.tup id ts ws ∈ v.containers → ts = ws.map Value.getType) ∧
    (∀ o : Obj, WellTypedObj o → ∀ id ts ws, Value.tup id ts ws ∈ o.containers → ts = ws.map Value.getType) := by
  refine Value.ind (mv := fun v => WellTyped v → ∀ id ts ws, Value.tup id ts ws ∈ v.containers → ts = ws.map Value.getType)
    (mo := fun o => WellTypedObj o → ∀ id ts ws, Value.tup id ts ws ∈ o.containers → ts = ws.map Value.getType) ?_ ?_ ?_ ?_ ?_ ?_ ?_ ?_ ?_
  · intro _ _ _ _ h; simp [Value.containers] at h
  · intro _ _ _ _ _ h; simp [Value.containers] at h
  · intro _ _ _ _ _ h; simp [Value.containers] at h
  · intro _ _ _ _ _ h; simp [Value.containers] at h
  · intro _ _ _ _ _ h; simp [Value.containers] at h
  · intro id t vs ih h i ts ws ho
    simp only [Value.containers, List.mem_cons, reduceCtorEq, false_or] at ho
    obtain ⟨v, hv, ho⟩ := containersL_mem.1 ho
    cases h with | arr h => exact ih v hv (h v hv) i ts ws ho
  · intro id t vs ih h i ts ws ho
    simp only [Value.containers, List.mem_cons] at ho
    cases h with | tup h1 h2 =>
    rcases ho with ho | ho
    · cases ho; exact h2
    · obtain ⟨v, hv, ho⟩ := containersL_mem.1 ho
      exact ih v hv (h1 v hv) i ts ws ho
  · intro o ih h
    cases h with | obj h => exact ih h
  · intro id ps par ih1 ih2 h i ts ws ho
    cases h with | mk h1 h2 =>
    simp only [Obj.containers, List.mem_cons, List.mem_append, reduceCtorEq, false_or] at ho
    rcases ho with ho | ho
    · obtain ⟨p, hp, ho⟩ := pairContainersL_mem.1 ho
      exact ih1 p hp (h1 p hp) i ts ws ho
    · cases par with
      | none => simp [Obj.containersP] at ho
      | some q => exact ih2 q rfl (h2 q rfl) i ts ws (by simpa [Obj.containersP] using ho)

omit [Unicode] in
theorem mem_statics {sh : Shared} {c : Value} : c ∈ sh.statics ↔ ∃ k i, sh.keyword k = some i ∧ c = keywordObj i := by
  unfold Shared.statics
  rw [List.mem_filterMap]
  constructor
  · rintro ⟨k, -, h⟩
    obtain ⟨i, h1, rfl⟩ := Option.map_eq_some_iff.1 h
    exact ⟨k, i, h1, rfl⟩
  · rintro ⟨k, i, h, rfl⟩
    exact ⟨k, by cases k <;> simp, by rw [h]; rfl⟩

omit [Unicode] in
theorem statics_containers {sh : Shared} {c : Value} (h : c ∈ Value.containersL sh.statics) :
    ∃ k i, sh.keyword k = some i ∧ c = keywordObj i := by
  obtain ⟨v, hv, hc⟩ := containersL_mem.1 h
  obtain ⟨k, i, h1, rfl⟩ := mem_statics.1 hv
  refine ⟨k, i, h1, ?_⟩
  simpa [keywordObj, Value.containers, Obj.containers, Pair.containersL, Obj.containersP] using hc

omit [Unicode] in
theorem statics_self {sh : Shared} {k : IncKind} {i : Nat} (h : sh.keyword k = some i) : keywordObj i ∈ Value.containersL sh.statics :=
  self_containersL (mem_statics.2 ⟨k, i, h, rfl⟩) trivial

theorem SessionOk.tidy {s : Session} (h : SessionOk s) : Tidy (s.pool ++ s.shared.statics) := by
  obtain ⟨r, h1, h2⟩ := h
  have hp : ∀ c ∈ Value.containersL s.pool, r c.cid = some c := by
    intro c hc
    obtain ⟨v, hv, hc⟩ := containersL_mem.1 hc
    exact (h2 v hv).reg c hc
  have hmix : ∀ c ∈ Value.containersL s.pool, ∀ d ∈ Value.containersL s.shared.statics, c.cid = d.cid → c = d := by
    intro c hc d hd e
    obtain ⟨k, i, h3, rfl⟩ := statics_containers hd
    have e' : c.cid = i := e
    have := hp c hc
    rcases h1.kw k i h3 with h4 | h4
    · rw [e', h4] at this; cases this
    · rw [e', h4] at this; cases this; rfl
  refine ⟨?_, ?_, ?_⟩
  · intro id ts ws hm
    rw [containersL_append, List.mem_append] at hm
    rcases hm with hm | hm
    · obtain ⟨v, hv, hm⟩ := containersL_mem.1 hm
      exact wellTyped_containers.1 v (h2 v hv).typed id ts ws hm
    · obtain ⟨k, i, -, h4⟩ := statics_containers hm
      cases h4
  · intro c hc d hd e
    rw [containersL_append, List.mem_append] at hc hd
    rcases hc with hc | hc <;> rcases hd with hd | hd
    · have := hp c hc
      rw [e, hp d hd] at this
      cases this; rfl
    · exact hmix c hc d hd e
    · exact (hmix d hd c hc e.symm).symm
    · obtain ⟨k, i, -, rfl⟩ := statics_containers hc
      obtain ⟨k', i', -, rfl⟩ := statics_containers hd
      have e' : i = i' := e
      rw [e']
  · intro c hc d hd
    rw [containersL_append, List.mem_append] at hc
    rcases hc with hc | hc
    · exact h1.older _ _ (hp c hc) d hd
    · obtain ⟨k, i, -, rfl⟩ := statics_containers hc
      simp [keywordObj, Value.containers, Obj.containers, Pair.containersL, Obj.containersP] at hd

theorem SessionOk.fine {s : Session} (h : SessionOk s) : s.shared.Fine := by
  obtain ⟨r, h1, -⟩ := h
  exact h1.fine

theorem SessionOk.below {s : Session} (h : SessionOk s) : ∀ c ∈ Value.containersL (s.pool ++ s.shared.statics), c.cid < s.shared.curId := by
  intro c hc
  have hf := h.fine
  obtain ⟨r, h1, h2⟩ := h
  rw [containersL_append, List.mem_append] at hc
  rcases hc with hc | hc
  · obtain ⟨v, hv, hc⟩ := containersL_mem.1 hc
    exact (h1.cid _ _ ((h2 v hv).reg c hc)).2
  · obtain ⟨k, i, h3, rfl⟩ := statics_containers hc
    exact (hf k i h3).1

theorem SessionOk.sub {s : Session} (h : SessionOk s) {vs : List Value} (hv : ∀ v ∈ vs, v ∈ s.pool) : SessionOk ⟨s.shared, vs⟩ := by
  obtain ⟨r, h1, h2⟩ := h
  exact ⟨r, h1, fun v hm => h2 v (hv v hm)⟩

theorem Lives.keeps {s s' : Session} (h : Lives s s') (hs : SessionOk s) : SessionOk s' := by
  induction h with
  | start => exact hs
  | call _ h2 ih => exact h2.keeps ih
  | @drop sh ps qs v _ ih =>
    refine SessionOk.sub (s := ⟨sh, ps ++ v :: qs⟩) ih ?_
    intro w hw
    rcases List.mem_append.1 hw with hw | hw
    · exact List.mem_append_left _ hw
    · exact List.mem_append_right _ (List.mem_cons_of_mem _ hw)

/-! ## Steps -/

/-- The keyword objects that are new. -/
def newStatics (s s' : Shared) : List Value :=
  [IncKind.obj, .str, .arr, .tup].filterMap fun k =>
    if s.keyword k = none then (s'.keyword k).map fun i => .obj (.mk i [] none) else none

omit [Unicode] in
theorem statics_perm {s s' : Shared} (h : s.MovesOn s') : (newStatics s s' ++ s.statics).Perm s'.statics := by
  unfold newStatics Shared.statics
  induction [IncKind.obj, IncKind.str, IncKind.arr, IncKind.tup] with
  | nil => exact .nil
  | cons k ks ih =>
    cases hk : s.keyword k with
    | some i =>
      have := h.keeps k i hk
      simp only [List.filterMap_cons, hk, this, reduceCtorEq, if_false, Option.map_some]
      exact List.perm_middle.trans (ih.cons _)
    | none =>
      cases hk' : s'.keyword k with
      | none => simpa only [List.filterMap_cons, hk, hk', if_true, Option.map_none] using ih
      | some i =>
        simp only [List.filterMap_cons, hk, hk', if_true, Option.map_none, Option.map_some, List.cons_append]
        exact ih.cons _

omit [Unicode] in
theorem newStatics_new {s s' : Shared} (h : s.MovesOn s') {c : Value} (hc : c ∈ Value.containersL (newStatics s s')) :
    s.curId ≤ c.cid := by
  obtain ⟨v, hv, hc⟩ := containersL_mem.1 hc
  unfold newStatics at hv
  obtain ⟨k, -, h1⟩ := List.mem_filterMap.1 hv
  split at h1
  · rename_i hk
    obtain ⟨i, h2, rfl⟩ := Option.map_eq_some_iff.1 h1
    have := (h.new k i hk h2).1
    have : c = .obj (.mk i [] none) := by
      simpa [Value.containers, Obj.containers, Pair.containersL, Obj.containersP] using hc
    subst this
    assumption
  · cases h1

omit [Unicode] in
theorem held_of {m : Mem} {ss : List Slot} (h : m.held.map Prod.snd = (ss : Multiset Slot)) {s : Slot} (hs : s ∈ ss) :
    ∃ t, (t, s) ∈ m.held := by
  have : s ∈ m.held.map Prod.snd := by rw [h]; exact Multiset.mem_coe.2 hs
  obtain ⟨⟨t, y⟩, h1, rfl⟩ := Multiset.mem_map.1 this
  exact ⟨t, h1⟩

omit [Unicode] in
theorem Grows.keepH {m m' : Mem} {t : Nat} {ss : List Slot} (h : Grows m m' t ss) : ∀ {us : List Slot} {vs : List Value},
    MeansL m us vs → (∀ s ∈ us, ∃ t', (t', s) ∈ m.held) → MeansL m' us vs
  | _, _, .nil, _ => .nil
  | _, _, .cons h1 h2, hh => by
    obtain ⟨t', ht⟩ := hh _ (List.mem_cons_self ..)
    exact .cons (h.keep t' _ _ ht h1) (Grows.keepH h h2 fun s hs => hh s (List.mem_cons_of_mem _ hs))

omit [Unicode] in
/-- Growing a memory by values. -/
theorem InMemory.grow {m : Mem} {sh sh' : Shared} {vs new : List Value} (t : Nat) (h : InMemory m sh vs) (hmv : sh.MovesOn sh')
    (ht : Tidy (new ++ vs ++ sh'.statics)) (hb : ∀ c ∈ Value.containersL (new ++ vs ++ sh'.statics), c.cid < sh'.curId)
    (hk : ∀ c ∈ Value.containersL new, c.cid < sh.curId → c ∈ Value.containersL (vs ++ sh.statics)) :
    ∃ m', MemExec m m' ∧ InMemory m' sh' (new ++ vs) := by
  have hm := Mem.Inv.init.exec h.exec
  obtain ⟨ss, h1, h2⟩ := h.owned
  have hperm : ((new ++ newStatics sh sh') ++ (vs ++ sh.statics)).Perm (new ++ vs ++ sh'.statics) := by
    rw [List.append_assoc, List.append_assoc]
    refine List.Perm.append_left _ ?_
    refine List.Perm.trans ?_ (List.Perm.append_left vs (statics_perm hmv))
    rw [← List.append_assoc, ← List.append_assoc]
    exact List.Perm.append_right _ List.perm_append_comm
  have hsub : ∀ c ∈ Value.containersL (new ++ newStatics sh sh'), c ∈ Value.containersL (new ++ vs ++ sh'.statics) :=
    sub_of_elem fun v hv => hperm.subset (List.mem_append_left _ hv)
  have hcur : sh'.curId = m.nextId + (sh'.curId - sh.curId) := by
    have := hmv.counter
    rw [h.counter]; omega
  obtain ⟨m', ss', g1, g2, g3⟩ := layout hm t (sh'.curId - sh.curId) (new ++ newStatics sh sh') (ht.sub hsub)
    (fun c hc => by rw [← hcur]; exact hb c (hsub c hc)) (fun c hc hl => by
      rw [h.counter] at hl
      rw [containersL_append, List.mem_append] at hc
      rcases hc with hc | hc
      · obtain ⟨v, hv, hcv⟩ := containersL_mem.1 (hk c hc hl)
        obtain ⟨s, hs, hsv⟩ := (meansL_mem h2).2 v hv
        obtain ⟨t, hth⟩ := held_of h1 hs
        exact ⟨t, s, v, hth, hsv, hcv⟩
      · have := newStatics_new hmv hc
        omega)
  refine ⟨m', g1.exec, h.exec.trans g1.exec, by rw [g2, ← hcur], by rw [g1.drop, h.quiet], ?_⟩
  have hall := meansL_append g3 (g1.keepH h2 fun s hs => held_of h1 hs)
  obtain ⟨us, p1, p2⟩ := meansL_perm hperm hall
  refine ⟨us, ?_, p2⟩
  rw [g1.held, Multiset.map_add, h1]
  have e : (Multiset.map Prod.snd (↑(List.map (Prod.mk t) ss') : Multiset (Nat × Slot))) = (ss' : Multiset Slot) := by
    rw [Multiset.map_coe, List.map_map]
    congr 1
    exact List.map_id _
  rw [e, Multiset.coe_add]
  exact Multiset.coe_eq_coe.2 p1

omit [Unicode] in
theorem dropExec_exec {m m' : Mem} (h : DropExec m m') : MemExec m m' := by
  induction h with
  | nil => exact .nil _
  | cons h1 _ ih => exact (MemExec.snoc (.nil _) (.glue h1)).trans ih

omit [Unicode] in
theorem dropExec_frame {m m' : Mem} (h : DropExec m m') (hm : m.Inv) : m'.nextId = m.nextId ∧ m'.held = m.held ∧
    ∀ t s v, (t, s) ∈ m.held → Means m s v → Means m' s v := by
  induction h with
  | nil => exact ⟨rfl, rfl, fun _ _ _ _ h => h⟩
  | cons h1 _ ih =>
    obtain ⟨-, e1, e2⟩ := load_step hm h1
    obtain ⟨e3, e4, e5⟩ := ih (hm.dropStep h1)
    refine ⟨e3.trans e2, e4.trans e1, fun t s v hh hv => e5 t s v (by rw [e1]; exact hh) ?_⟩
    exact keep_held (hm.dropStep h1) (sameCells_step (.glue h1)) hv (t := t) (by rw [e1]; exact hh)

end
end Over
