import Verif.Lemmas.Identity
import Verif.Props.Meaning
import Verif.Props.Containers
import Verif.Model.Api

/-! # Everything a program gets hold of: an invariant over histories of calls -/

namespace Over

section
variable [Unicode]

/-- Every field name of every object in the value is acceptable to `Obj::from_pairs`. -/
def NamesAccepted (v : Value) : Prop := ∀ o, Value.obj o ∈ v.containers → ∀ p ∈ o.pairs, AcceptedName p.field

omit [Unicode] in
/-- What holds of an object, its fields and parents holds of what `get_with_source` returns. -/
theorem getWithSource_closed {P : Value → Prop} (h1 : ∀ o p, P (.obj o) → p ∈ o.pairs → P p.value)
    (h2 : ∀ o q, P (.obj o) → o.parent = some q → P (.obj q)) (o : Obj) (f : Str) :
    P (.obj o) → ∀ v o', o.getWithSource f = some (v, o') → P v ∧ P (.obj o') := by
  refine (Value.ind (mv := fun _ => True)
    (mo := fun o => P (.obj o) → ∀ v o', o.getWithSource f = some (v, o') → P v ∧ P (.obj o')) trivial
    (fun _ => trivial) (fun _ => trivial) (fun _ => trivial) (fun _ => trivial)
    (fun _ _ _ _ => trivial) (fun _ _ _ _ => trivial) (fun _ _ => trivial) ?_).2 o
  intro id ps par _ ih hP v o' h
  simp only [Obj.getWithSource] at h
  cases hf : findPair ps f with
  | some p =>
    rw [hf] at h
    cases h
    exact ⟨h1 _ _ hP (List.mem_of_find?_eq_some hf), hP⟩
  | none =>
    rw [hf] at h
    cases par with
    | none => cases h
    | some q => exact ih q rfl (h2 _ q hP rfl) v o' h

omit [Unicode] in
theorem obj_get_closed {P : Value → Prop} (h1 : ∀ o p, P (.obj o) → p ∈ o.pairs → P p.value)
    (h2 : ∀ o q, P (.obj o) → o.parent = some q → P (.obj q)) {o : Obj} {f : Str} (hP : P (.obj o)) {v : Value}
    (h : o.get f = some v) : P v := by
  rw [c12_get_eq_source] at h
  cases hs : o.getWithSource f with
  | none => rw [hs] at h; cases h
  | some x =>
    rw [hs] at h
    cases h
    exact (getWithSource_closed h1 h2 o f hP x.1 x.2 hs).1

theorem fieldName_accepted {f : Str} (h : FieldName f) : AcceptedName f := by
  obtain ⟨c, cs, rfl, h1, h2, -⟩ := h
  refine .inr ⟨c, cs, rfl, ?_, ?_⟩
  · rcases h1 with h1 | h1
    · exact .inl h1
    · exact .inr (.inl h1)
  · intro d hd
    rcases h2 d hd with h | h | h
    · exact .inl h
    · exact .inr (.inl ((isDigit_iff d).1 ((decDigit_eq d).symm.trans h)))
    · exact .inr (.inr h)

theorem namesOk_accepted : (∀ v : Value, NamesOk v → NamesAccepted v) ∧ (∀ o : Obj, NamesOkObj o → NamesAccepted (.obj o)) := by
  refine Value.ind (mv := fun v => NamesOk v → NamesAccepted v) (mo := fun o => NamesOkObj o → NamesAccepted (.obj o)) ?_ ?_ ?_ ?_ ?_ ?_ ?_ ?_ ?_
  · intro _ o h; simp [Value.containers] at h
  · intro _ _ o h; simp [Value.containers] at h
  · intro _ _ o h; simp [Value.containers] at h
  · intro _ _ o h; simp [Value.containers] at h
  · intro _ _ o h; simp [Value.containers] at h
  · intro id t vs ih h o ho
    simp only [Value.containers, List.mem_cons, reduceCtorEq, false_or] at ho
    obtain ⟨v, hv, ho⟩ := containersL_mem.1 ho
    cases h with | arr h => exact ih v hv (h v hv) o ho
  · intro id t vs ih h o ho
    simp only [Value.containers, List.mem_cons, reduceCtorEq, false_or] at ho
    obtain ⟨v, hv, ho⟩ := containersL_mem.1 ho
    cases h with | tup h => exact ih v hv (h v hv) o ho
  · intro o ih h
    cases h with | obj h => exact ih h
  · intro id ps par ih1 ih2 h o ho
    cases h with | mk h1 _ h3 h4 =>
    simp only [Value.containers, Obj.containers, List.mem_cons, List.mem_append] at ho
    rcases ho with ho | ho | ho
    · cases ho
      exact fun p hp => fieldName_accepted (h1 p hp)
    · obtain ⟨p, hp, ho⟩ := pairContainersL_mem.1 ho
      exact ih1 p hp (h3 p hp) o ho
    · cases par with
      | none => simp [Obj.containersP] at ho
      | some q => exact ih2 q rfl (h4 q rfl) o (by simpa [Obj.containersP, Value.containers] using ho)

/-! ## The invariant -/

omit [Unicode] in
theorem RegOk.congr {N : Nat} {rt rt' : Rt} {r : Reg} (h : RegOk N rt r) (e : rt.toShared = rt'.toShared) : RegOk N rt' r := by
  obtain ⟨s, t, ot, m⟩ := rt
  obtain ⟨s', t', ot', m'⟩ := rt'
  cases e
  exact ⟨h.fine, h.start, h.cid, h.kw, h.old, h.older⟩

/-- A process state in which nobody else does anything. -/
def Shared.rt (s : Shared) : Rt := ⟨s, 0, fun _ s => s, fun _ s => Shared.MovesOn.refl s⟩

omit [Unicode] in
theorem RegOk.moves {N : Nat} {s s' : Shared} {r : Reg} (h : RegOk N s.rt r) (m : s.MovesOn s') : RegOk N s'.rt r where
  fine := m.fine h.fine
  start := h.start.trans m.counter
  cid i c hc := ⟨(h.cid i c hc).1, Nat.lt_of_lt_of_le (h.cid i c hc).2 m.counter⟩
  kw k i hk := by
    cases hs : s.keyword k with
    | some j =>
      have := m.keeps k j hs
      change s'.keyword k = some i at hk
      rw [this] at hk
      cases hk
      exact h.kw k i hs
    | none =>
      left
      have := (m.new k i hs hk).1
      cases hr : r i with
      | none => rfl
      | some c => have h1 : i < s.curId := (h.cid i c hr).2; omega
  old i c hc := by
    rcases h.old i c hc with h1 | ⟨k, h1, h2⟩
    · exact .inl h1
    · exact .inr ⟨k, m.keeps k i h1, h2⟩
  older := h.older

/-- A value as it should be. -/
structure Proper (r : Reg) (v : Value) : Prop where
  reg : Registered r v
  typed : WellTyped v
  names : NamesAccepted v

/-- The invariant. -/
def SessionOk (s : Session) : Prop := ∃ r, RegOk 0 s.shared.rt r ∧ ∀ v ∈ s.pool, Proper r v

theorem Proper.mono {r r' : Reg} {v : Value} (h : Proper r v) (hl : r.Le r') : Proper r' v := ⟨h.reg.mono hl, h.typed, h.names⟩

theorem Proper.ofArr {r : Reg} {id : Nat} {t : Ty} {vs : List Value} (h : Proper r (.arr id t vs)) {v : Value} (hv : v ∈ vs) :
    Proper r v where
  reg c hc := h.reg c (by simp only [Value.containers, List.mem_cons]; exact .inr (containersL_mem.2 ⟨v, hv, hc⟩))
  typed := by cases h.typed with | arr h _ => exact h v hv
  names o ho := h.names o (by simp only [Value.containers, List.mem_cons]; exact .inr (containersL_mem.2 ⟨v, hv, ho⟩))

theorem Proper.ofTup {r : Reg} {id : Nat} {t : List Ty} {vs : List Value} (h : Proper r (.tup id t vs)) {v : Value} (hv : v ∈ vs) :
    Proper r v where
  reg c hc := h.reg c (by simp only [Value.containers, List.mem_cons]; exact .inr (containersL_mem.2 ⟨v, hv, hc⟩))
  typed := by cases h.typed with | tup h _ => exact h v hv
  names o ho := h.names o (by simp only [Value.containers, List.mem_cons]; exact .inr (containersL_mem.2 ⟨v, hv, ho⟩))

theorem Proper.ofField {r : Reg} (o : Obj) (p : Pair) (h : Proper r (.obj o)) (hp : p ∈ o.pairs) : Proper r p.value := by
  obtain ⟨id, ps, par⟩ := o
  have hm : ∀ c ∈ p.value.containers, c ∈ (Value.obj (.mk id ps par)).containers := fun c hc => by
    simp only [Value.containers, Obj.containers, List.mem_cons, List.mem_append]
    exact .inr (.inl (pairContainersL_mem.2 ⟨p, hp, hc⟩))
  refine ⟨fun c hc => h.reg c (hm c hc), ?_, fun o ho => h.names o (hm _ ho)⟩
  cases h.typed with | obj h => cases h with | mk h _ => exact h p hp

theorem Proper.ofParent {r : Reg} (o q : Obj) (h : Proper r (.obj o)) (hp : o.parent = some q) : Proper r (.obj q) := by
  obtain ⟨id, ps, par⟩ := o
  cases hp
  have hm : ∀ c ∈ (Value.obj q).containers, c ∈ (Value.obj (.mk id ps (some q))).containers := fun c hc => by
    simp only [Value.containers, Obj.containers, List.mem_cons, List.mem_append]
    exact .inr (.inr (by simpa [Obj.containersP, Value.containers] using hc))
  refine ⟨fun c hc => h.reg c (hm c hc), ?_, fun o ho => h.names o (hm _ ho)⟩
  cases h.typed with | obj h => cases h with | mk _ h => exact .obj (h q rfl)

theorem Proper.plain {r : Reg} {v : Value} (h : v.containers = []) (ht : WellTyped v) : Proper r v :=
  ⟨by intro c hc; rw [h] at hc; simp at hc, ht, by intro c hc; rw [h] at hc; simp at hc⟩

theorem SessionOk.got {s : Session} {v : Value} (h : SessionOk s) (hv : ∀ r, (∀ w ∈ s.pool, Proper r w) → Proper r v) :
    SessionOk (s.got v) := by
  obtain ⟨r, h1, h2⟩ := h
  refine ⟨r, h1, ?_⟩
  intro w hw
  rcases List.mem_cons.1 hw with rfl | hw
  · exact hv r h2
  · exact h2 w hw

/-- A new container, whose contents (`inner`) the program had. -/
theorem SessionOk.made {s : Session} {v : Value} (h : SessionOk s) (hi : v.cid = s.shared.curId)
    (hc : v.containers = v :: v.containers.tail)
    (hreg : ∀ r, (∀ w ∈ s.pool, Proper r w) → ∀ d ∈ v.containers.tail, r d.cid = some d)
    (ht : (∀ w ∈ s.pool, WellTyped w) → WellTyped v) (hn : (∀ w ∈ s.pool, NamesAccepted w) → NamesAccepted v) :
    SessionOk (s.made v) := by
  obtain ⟨r, h1, h2⟩ := h
  obtain ⟨h3, h4⟩ := h1.next (c := v) hi (hreg r h2)
  refine ⟨_, h3.congr (rt' := ((s.made v).shared).rt) rfl, ?_⟩
  intro w hw
  rcases List.mem_cons.1 hw with rfl | hw
  · refine ⟨?_, ht fun w hw => (h2 w hw).typed, hn fun w hw => (h2 w hw).names⟩
    intro c hcm
    rw [hc] at hcm
    rcases List.mem_cons.1 hcm with rfl | hcm
    · rw [hi]; exact if_pos rfl
    · exact h4 _ _ (hreg r h2 c hcm)
  · exact (h2 w hw).mono h4

theorem SessionOk.madeArr {s : Session} {t : Ty} {vs : List Value} (h : SessionOk s) (hvs : ∀ v ∈ vs, v ∈ s.pool)
    (ht : (∀ v ∈ vs, WellTyped v) → WellTyped (.arr s.shared.curId t vs)) : SessionOk (s.made (.arr s.shared.curId t vs)) := by
  refine h.made rfl rfl ?_ (fun h => ht fun v hv => h v (hvs v hv)) ?_
  · intro r hr d hd
    obtain ⟨v, hv, hd⟩ := containersL_mem.1 hd
    exact (hr v (hvs v hv)).reg d hd
  · intro hw o ho
    simp only [Value.containers, List.mem_cons, reduceCtorEq, false_or] at ho
    obtain ⟨v, hv, hd⟩ := containersL_mem.1 ho
    exact hw v (hvs v hv) o hd

theorem SessionOk.madeTup {s : Session} {t : List Ty} {vs : List Value} (h : SessionOk s) (hvs : ∀ v ∈ vs, v ∈ s.pool)
    (ht : (∀ v ∈ vs, WellTyped v) → WellTyped (.tup s.shared.curId t vs)) : SessionOk (s.made (.tup s.shared.curId t vs)) := by
  refine h.made rfl rfl ?_ (fun h => ht fun v hv => h v (hvs v hv)) ?_
  · intro r hr d hd
    obtain ⟨v, hv, hd⟩ := containersL_mem.1 hd
    exact (hr v (hvs v hv)).reg d hd
  · intro hw o ho
    simp only [Value.containers, List.mem_cons, reduceCtorEq, false_or] at ho
    obtain ⟨v, hv, hd⟩ := containersL_mem.1 ho
    exact hw v (hvs v hv) o hd

theorem SessionOk.madeObj {s : Session} {ps : List Pair} {par : Option Obj} (h : SessionOk s) (hps : ∀ p ∈ ps, p.value ∈ s.pool)
    (hpar : ∀ q, par = some q → Value.obj q ∈ s.pool) (hn : ∀ p ∈ ps, AcceptedName p.field) :
    SessionOk (s.made (.obj (.mk s.shared.curId ps par))) := by
  refine h.made rfl rfl ?_ ?_ ?_
  · intro r hr d hd
    simp only [Value.containers, Obj.containers, List.tail_cons, List.mem_append] at hd
    rcases hd with hd | hd
    · obtain ⟨p, hp, hd⟩ := pairContainersL_mem.1 hd
      exact (hr _ (hps p hp)).reg d hd
    · cases par with
      | none => simp [Obj.containersP] at hd
      | some q => exact (hr _ (hpar q rfl)).reg d (by simpa [Obj.containersP, Value.containers] using hd)
  · intro hw
    refine .obj (.mk (fun p hp => hw _ (hps p hp)) ?_)
    intro q hq
    have := hw _ (hpar q hq)
    cases this with | obj h => exact h
  · intro hw o ho
    simp only [Value.containers, Obj.containers, List.mem_cons, List.mem_append] at ho
    rcases ho with ho | ho | ho
    · cases ho
      exact hn
    · obtain ⟨p, hp, ho⟩ := pairContainersL_mem.1 ho
      exact hw _ (hps p hp) o ho
    · cases par with
      | none => simp [Obj.containersP] at ho
      | some q => exact hw _ (hpar q rfl) o (by simpa [Obj.containersP, Value.containers] using ho)

/-- What is read. -/
theorem SessionOk.parsed {s : Session} {fs : FS} {file : Option Str} {stack : List Str} {d : List Field} {rt : Rt} {o : Obj} {st : ESt}
    {sh : Shared} (h : SessionOk s) (hrt : rt.toShared = s.shared) (hm : meaning fs file stack d rt = .ok (o, st))
    (hst : sh = st.rt.toShared) (hw : WellTypedObj o) (hn : NamesOkObj o) : SessionOk ⟨sh, .obj o :: s.pool⟩ := by
  obtain ⟨r, h1, h2⟩ := h
  obtain ⟨r', h3, h4, h5⟩ := (regInv 0).evalDoc_good (regIncludes _ fs file stack) d (⟨[], [], rt⟩, r)
    ⟨h1.congr hrt.symm, (by intro g v hg; cases hg), (by intro g v hg; cases hg)⟩ (fun _ _ => trivial) o st hm
  subst hst
  refine ⟨r', h3.1.congr (rt' := st.rt.toShared.rt) rfl, ?_⟩
  intro w hw'
  rcases List.mem_cons.1 hw' with rfl | hw'
  · exact ⟨h5, .obj hw, namesOk_accepted.2 o hn⟩
  · exact (h2 w hw').mono h4

theorem ApiStep.keeps {s s' : Session} (h : ApiStep s s') (hs : SessionOk s) : SessionOk s' := by
  cases h with
  | others m =>
    obtain ⟨r, h1, h2⟩ := hs
    exact ⟨r, h1.moves m, h2⟩
  | null => exact hs.got fun _ _ => .plain rfl .null
  | bool b => exact hs.got fun _ _ => .plain rfl (.bool b)
  | int i => exact hs.got fun _ _ => .plain rfl (.int i)
  | frac q => exact hs.got fun _ _ => .plain rfl (.frac q)
  | str x => exact hs.got fun _ _ => .plain rfl (.str x)
  | arrEmpty => exact hs.madeArr (t := .any) (vs := []) (by simp) (fun _ => c09_constructors_well_typed.2.1 s.shared.curId)
  | @arr vs a hvs ha =>
    have h1 := (c05_from_values_result _ vs a ha).1
    have hid : a.id = s.shared.curId := by
      unfold Arr.fromValues at ha
      split at ha <;> cases ha
      rfl
    obtain ⟨i, t, ws⟩ := a
    simp only at h1 hid
    subst h1 hid
    exact hs.madeArr hvs (fun hw => c09_constructors_well_typed.1 _ _ _ hw ha)
  | @arrUnchecked vs t hvs hne hty =>
    refine hs.madeArr hvs (fun hw => .arr hw ?_)
    refine ⟨?_, ?_⟩
    · intro x hx
      obtain ⟨v, hv, rfl⟩ := List.mem_map.1 hx
      rw [hty v hv]
      exact Refines.refl _
    · intro d hd
      obtain ⟨v, vs', rfl⟩ := List.exists_cons_of_ne_nil hne
      have := hd v.getType (by simp [Arr.fromValuesUnchecked])
      rwa [hty v (by simp)] at this
  | @tup vs hvs => exact hs.madeTup hvs (fun hw => c09_constructors_well_typed.2.2.1 s.shared.curId vs hw)
  | objEmpty => exact hs.madeObj (by simp) (by simp) (by simp)
  | obj hps hpar ho =>
    obtain ⟨h1, rfl⟩ := (c13_from_pairs_ok _ _ _ _).1 ho
    exact hs.madeObj hps hpar h1
  | objUnchecked hps hpar hn => exact hs.madeObj hps hpar (fun p hp => (c13_is_valid_field_iff _).1 (hn p hp))
  | @objMacro es o hes ho =>
    obtain ⟨h1, h2, h3⟩ := c15_try_obj s.shared.curId es
    have hps : ∀ p ∈ (es.filter (fun e => decide (e.1 ≠ c!"^"))).map (fun e => Pair.mk e.1 e.2), p.value ∈ s.pool := by
      intro p hp
      obtain ⟨e, he, rfl⟩ := List.mem_map.1 hp
      exact hes e (List.mem_of_mem_filter he)
    rcases List.eq_nil_or_concat (es.filter (fun e : Str × Value => decide (e.1 = c!"^"))) with h | ⟨l, ⟨f, v⟩, h⟩
    · rw [h1 h] at ho
      obtain ⟨h4, rfl⟩ := (c13_from_pairs_ok _ _ _ _).1 ho
      exact hs.madeObj hps (by simp) h4
    · rw [List.concat_eq_append] at h
      by_cases hq : ∃ q, v = .obj q
      · obtain ⟨q, rfl⟩ := hq
        rw [h2 l f q h] at ho
        obtain ⟨h4, rfl⟩ := (c13_from_pairs_ok _ _ _ _).1 ho
        refine hs.madeObj hps ?_ h4
        intro q' hq'
        cases hq'
        exact hes (f, .obj q) (List.mem_of_mem_filter (p := fun e : Str × Value => decide (e.1 = c!"^")) (by rw [h]; simp))
      · rw [h3 l f v h (fun q hv => hq ⟨q, hv⟩)] at ho
        cases ho
  | arrGet ha hg =>
    refine hs.got fun r hr => (hr _ ha).ofArr ?_
    unfold Arr.get at hg
    split at hg
    · cases hg
    · split at hg
      · cases hg
        exact List.mem_of_getElem? ‹_›
      · cases hg
  | arrIter ha hv => exact hs.got fun r hr => (hr _ ha).ofArr hv
  | tupGet ha hg =>
    refine hs.got fun r hr => (hr _ ha).ofTup ?_
    unfold Tup.get at hg
    split at hg
    · cases hg
    · split at hg
      · cases hg
        exact List.mem_of_getElem? ‹_›
      · cases hg
  | tupIter ha hv => exact hs.got fun r hr => (hr _ ha).ofTup hv
  | objGet ho hg => exact hs.got fun r hr => obj_get_closed Proper.ofField Proper.ofParent (hr _ ho) hg
  | @objSource o o' f v ho hg =>
    refine (hs.got fun r hr => ?_).got fun r hr => ?_
    · exact (getWithSource_closed Proper.ofField Proper.ofParent o f (hr _ ho) v o' hg).1
    · exact (getWithSource_closed Proper.ofField Proper.ofParent o f (hr _ (List.mem_cons_of_mem _ ho)) v o' hg).2
  | objParent ho hq => exact hs.got fun r hr => (hr _ ho).ofParent _ _ hq
  | objIter ho hp => exact hs.got fun r hr => (hr _ ho).ofField _ _ hp
  | getFrac hv hq => exact hs.got fun _ _ => .plain rfl (.frac _)
  | @fromStr fs text rt o st hrt hr =>
    obtain ⟨d, st', -, h2, h3⟩ := c45_from_str_accepts fs text rt o st hr
    have hR := Runs.str (fs := fs) (rt := rt) text
    rw [hr] at hR
    exact hs.parsed hrt h2 (by rw [h3]) (c26_parsed_well_typed _ _ _ _ _ hR) (c27_parsed_names_ok _ _ _ _ _ hR)
  | @fromFile fs path rt o st hrt hr =>
    cases hrd : fs.read path with
    | error m => simp [Over.fromFile, hrd] at hr
    | ok contents =>
      obtain ⟨full, hp⟩ := read_resolve hrd
      obtain ⟨_, d, st', -, -, h2, h3⟩ := c45_from_file_accepts fs path full rt o st hp hr
      have hR := Runs.file (fs := fs) (rt := rt) path contents hrd
      rw [hr] at hR
      exact hs.parsed hrt h2 (by rw [h3]) (c26_parsed_well_typed _ _ _ _ _ hR) (c27_parsed_names_ok _ _ _ _ _ hR)

theorem Calls.keeps {s s' : Session} (h : Calls s s') (hs : SessionOk s) : SessionOk s' := by
  induction h with
  | none => exact hs
  | more _ h2 ih => exact h2.keeps ih

theorem sessionOk_start {s : Session} (hp : s.pool = []) (hf : s.shared.Fine) : SessionOk s := by
  refine ⟨fun _ => none, ⟨hf, Nat.zero_le _, ?_, fun _ _ _ => .inl rfl, ?_, ?_⟩, ?_⟩
  · intro _ _ h; cases h
  · intro _ _ h; cases h
  · intro _ _ h; cases h
  · rw [hp]; simp

end
end Over
