import Verif.Lemmas.Histories
import Verif.Props.Refs
import Verif.Props.Api

/-!
# C81: a program's history in reference-counted memory
-/

namespace Over

section
variable [Unicode]
variable (s₀ s : Session) (h₀ : s₀.pool = []) (hf : s₀.shared.Fine) (h : Lives s₀ s)

include h₀ hf in
/-- C81: before the first call there is a memory with nothing but the statics. -/
theorem c81_start : ∃ m, InMemory m s₀.shared s₀.pool := by
  have hs := sessionOk_start h₀ hf
  rw [h₀]
  have h1 : InMemory Mem.init ⟨0, none, none, none, none⟩ [] :=
    ⟨.nil _, rfl, rfl, [], rfl, by
      have : (⟨0, none, none, none, none⟩ : Shared).statics = [] := rfl
      rw [this]; exact .nil⟩
  have ht := hs.tidy
  have hb := hs.below
  rw [h₀] at ht hb
  obtain ⟨m, -, h2⟩ := h1.grow (new := []) (sh' := s₀.shared) 0
    ⟨Nat.zero_le _, (by intro k i h; cases k <;> cases h), (by intro k i _ h; exact ⟨Nat.zero_le _, hf k i h⟩)⟩ ht hb (by simp [Value.containersL])
  exact ⟨m, h2⟩

include h₀ hf h

/-- C81: whatever a call does (a parse included), it is a further execution in memory, from every memory that the history can have led
to: it makes references to what is there and new containers with new ids, and nothing else. -/
theorem c81_call (s' : Session) (hc : ApiStep s s') (m : Mem) (hm : InMemory m s.shared s.pool) :
    ∃ m', MemExec m m' ∧ InMemory m' s'.shared s'.pool := by
  have hs := h.keeps (sessionOk_start h₀ hf)
  have hs' := hc.keeps hs
  obtain ⟨new, hp, hmv, hk⟩ := hc.frame hs.fine
  have ht := hs'.tidy
  have hb := hs'.below
  rw [hp] at ht hb ⊢
  refine hm.grow 0 hmv ht hb ?_
  intro c hc hl
  rw [containersL_append, List.mem_append]
  rcases hk c hc hl with h1 | ⟨k, i, h1, rfl⟩
  · exact .inl h1
  · exact .inr (statics_self h1)

omit h₀ hf h [Unicode] in
/-- C81: when the program drops a value, the drops that follow lead to a memory with the other values. -/
theorem c81_drop (sh : Shared) (ps qs : List Value) (v : Value) (m : Mem) (hm : InMemory m sh (ps ++ v :: qs)) :
    ∃ m', MemExec m m' ∧ InMemory m' sh (ps ++ qs) := by
  have hi := Mem.Inv.init.exec hm.exec
  obtain ⟨ss, h1, h2⟩ := hm.owned
  have hperm : (ps ++ v :: qs ++ sh.statics).Perm (v :: (ps ++ qs ++ sh.statics)) := by
    simp only [List.append_assoc, List.cons_append]
    exact List.perm_middle
  obtain ⟨ss', p1, p2⟩ := meansL_perm hperm h2
  cases p2 with
  | @cons x _ us _ hx hus =>
    have h1' : m.held.map Prod.snd = ((x :: us : List Slot) : Multiset Slot) := by rw [h1]; exact Multiset.coe_eq_coe.2 p1
    obtain ⟨t, ht⟩ := held_of h1' (List.mem_cons_self ..)
    have hst := MemStep.drop m t x ht
    have hi2 := hi.step hst
    have hheld : (m.held.erase (t, x)).map Prod.snd = (us : Multiset Slot) := by
      have e := Multiset.cons_erase ht
      have e2 : ((t, x) ::ₘ m.held.erase (t, x)).map Prod.snd = x ::ₘ (us : Multiset Slot) := by rw [e, h1']; rfl
      rw [Multiset.map_cons] at e2
      exact (Multiset.cons_inj_right x).1 e2
    obtain ⟨m', d1, d2, d3⟩ := drop_finishes _ _ hi2 (Nat.le_refl _)
    obtain ⟨e1, e2, e3⟩ := dropExec_frame d1 hi2
    have hex : MemExec m m' := (MemExec.snoc (.nil m) hst).trans (dropExec_exec d1)
    refine ⟨m', hex, hm.exec.trans hex, by rw [e1]; exact hm.counter, d2, us, by rw [e2]; exact hheld, ?_⟩
    have key : ∀ {ys : List Slot} {ws : List Value}, MeansL m ys ws → (∀ y ∈ ys, y ∈ us) → MeansL m' ys ws := by
      intro ys ws hh
      induction ws generalizing ys with
      | nil => cases hh; exact fun _ => .nil
      | cons w ws ih =>
        intro hy
        cases hh with
        | cons g1 g2 =>
          obtain ⟨t', ht'⟩ := held_of (m := { m with held := m.held.erase (t, x), dropping := (t, x) ::ₘ m.dropping }) hheld
            (hy _ (List.mem_cons_self ..))
          exact .cons (e3 t' _ _ ht' (keep_held hi2 (sameCells_step hst) g1 (t := t') ht')) (ih g2 fun y h => hy y (List.mem_cons_of_mem _ h))
    exact key hus fun _ h => h

/-- C81: so every history of calls and drops happens in memory. -/
theorem c81_history : ∃ m, InMemory m s.shared s.pool := by
  induction h with
  | start => exact c81_start _ h₀ hf
  | @call s2 s3 h1 h2 ih =>
    obtain ⟨m, hm⟩ := ih
    obtain ⟨m', -, hm'⟩ := c81_call s₀ s2 h₀ hf h1 s3 h2 m hm
    exact ⟨m', hm'⟩
  | @drop sh ps qs v h1 ih =>
    obtain ⟨m, hm⟩ := ih
    obtain ⟨m', -, hm'⟩ := c81_drop sh ps qs v m hm
    exact ⟨m', hm'⟩

/-- C81: the containers that are alive can be listed, each once, … -/
theorem c81_alive : ∃ cs : List Value, (cs.map Value.cid).Nodup ∧ ∀ c, c ∈ cs ↔ c ∈ Value.containersL (s.pool ++ s.shared.statics) := by
  have ht := (h.keeps (sessionOk_start h₀ hf)).tidy
  have key : ∀ l : List Value, (∀ c ∈ l, ∀ d ∈ l, c.cid = d.cid → c = d) → ∃ cs : List Value, (cs.map Value.cid).Nodup ∧ ∀ c, c ∈ cs ↔ c ∈ l := by
    intro l
    induction l with
    | nil => exact fun _ => ⟨[], by simp, by simp⟩
    | cons x l ih =>
      intro hl
      obtain ⟨cs, h1, h2⟩ := ih fun c hc d hd => hl c (List.mem_cons_of_mem _ hc) d (List.mem_cons_of_mem _ hd)
      by_cases hx : x ∈ l
      · refine ⟨cs, h1, fun c => ?_⟩
        rw [h2, List.mem_cons]
        constructor
        · exact .inr
        · rintro (rfl | h)
          · exact hx
          · exact h
      · refine ⟨x :: cs, ?_, fun c => by rw [List.mem_cons, List.mem_cons, h2]⟩
        rw [List.map_cons, List.nodup_cons]
        refine ⟨fun hm => ?_, h1⟩
        obtain ⟨d, hd, e⟩ := List.mem_map.1 hm
        have hd' := (h2 d).1 hd
        exact hx (hl x (by simp) d (List.mem_cons_of_mem _ hd') e.symm ▸ hd')
  exact key _ ht.same

omit h₀ hf h [Unicode] in
/-- C81: … and in every memory that the history can have led to, each value the program has is there, and `num_references` of a container is
the number of times the program holds it, plus the number of times it is directly inside a container that is alive, plus one for each
static that is this object: nothing else refers to it, whatever has been parsed, included, copied or dropped before. -/
theorem c81_num_references (m : Mem) (hm : InMemory m s.shared s.pool) (cs : List Value) (hn : (cs.map Value.cid).Nodup)
    (hc : ∀ c, c ∈ cs ↔ c ∈ Value.containersL (s.pool ++ s.shared.statics)) (c : Value) (hcc : c ∈ Value.containersL s.pool) :
    ∃ x, Means m x c ∧ m.numReferences x = some (s.pool.countP (Value.hasId c.cid) + (cs.flatMap Value.parts).countP (Value.hasId c.cid) +
      s.shared.statics.countP (Value.hasId c.cid)) ∧
    ∀ y, Means m y c → m.numReferences y = m.numReferences x := by
  obtain ⟨ss, h1, h2⟩ := hm.owned
  have hi := Mem.Inv.init.exec hm.exec
  have hcs : c ∈ cs := (hc c).2 (by rw [containersL_append]; exact List.mem_append_left _ hcc)
  have hall : ∀ y, Means m y c → m.numReferences y = some (s.pool.countP (Value.hasId c.cid) +
      (cs.flatMap Value.parts).countP (Value.hasId c.cid) + s.shared.statics.countP (Value.hasId c.cid)) := by
    intro y hy
    rw [c67_of_values m hm.exec hm.quiet ss h1 _ h2 cs hn hc y c hcs hy, List.countP_append]
    congr 1
    omega
  obtain ⟨v, hv, hcv⟩ := containersL_mem.1 hcc
  obtain ⟨x, hx, hxv⟩ := (meansL_mem h2).2 v (List.mem_append_left _ hv)
  obtain ⟨t, ht⟩ := held_of h1 hx
  obtain ⟨x', a, -, -, h3⟩ := (hi.containers hxv (hi.fitsH _ ht) c).1 hcv
  exact ⟨x', h3, hall x' h3, fun y hy => by rw [hall y hy, hall x' h3]⟩

/-- C81: two containers the program can get at are one allocation (`ptr_eq`) exactly when they have the same id, and then they are the same value. -/
theorem c81_one_allocation (m : Mem) (hm : InMemory m s.shared s.pool) (c d : Value) (hc : c ∈ Value.containersL s.pool)
    (hd : d ∈ Value.containersL s.pool) (x y : Slot) (hx : Means m x c) (hy : Means m y d) :
    (x.ptrEq y = true ↔ c.cid = d.cid) ∧ (c.cid = d.cid → c = d ∧ x = y) := by
  have hi := Mem.Inv.init.exec hm.exec
  have ht := (h.keeps (sessionOk_start h₀ hf)).tidy
  have hsame : c.cid = d.cid → c = d := by
    refine ht.same c ?_ d ?_
    · rw [containersL_append]; exact List.mem_append_left _ hc
    · rw [containersL_append]; exact List.mem_append_left _ hd
  have hcc : ∀ c ∈ Value.containersL s.pool, c.IsCont := by
    have key : ∀ v : Value, ∀ c ∈ v.containers, c.IsCont := by
      refine (Value.ind (mv := fun v => ∀ c ∈ v.containers, c.IsCont) (mo := fun o => ∀ c ∈ o.containers, c.IsCont)
        ?_ ?_ ?_ ?_ ?_ ?_ ?_ ?_ ?_).1
      · intro c h; simp [Value.containers] at h
      · intro _ c h; simp [Value.containers] at h
      · intro _ c h; simp [Value.containers] at h
      · intro _ c h; simp [Value.containers] at h
      · intro _ c h; simp [Value.containers] at h
      · intro i t vs ih c h
        simp only [Value.containers, List.mem_cons] at h
        rcases h with rfl | h
        · trivial
        · obtain ⟨v, hv, h⟩ := containersL_mem.1 h
          exact ih v hv c h
      · intro i t vs ih c h
        simp only [Value.containers, List.mem_cons] at h
        rcases h with rfl | h
        · trivial
        · obtain ⟨v, hv, h⟩ := containersL_mem.1 h
          exact ih v hv c h
      · intro o ih c h
        exact ih c h
      · intro i ps par ih1 ih2 c h
        simp only [Obj.containers, List.mem_cons, List.mem_append] at h
        rcases h with rfl | h | h
        · trivial
        · obtain ⟨p, hp, h⟩ := pairContainersL_mem.1 h
          exact ih1 p hp c h
        · cases par with
          | none => simp [Obj.containersP] at h
          | some q => exact ih2 q rfl c (by simpa [Obj.containersP] using h)
    intro c hc
    obtain ⟨v, -, hc⟩ := containersL_mem.1 hc
    exact key v c hc
  obtain ⟨a, ha⟩ := means_addr hx (hcc c hc)
  obtain ⟨b, hb⟩ := means_addr hy (hcc d hd)
  obtain ⟨ce, e1, e2, -⟩ := hx.at_id ha
  obtain ⟨ce', f1, f2, -⟩ := hy.at_id hb
  obtain ⟨k, hk⟩ := cellAt_iff.1 e1
  obtain ⟨k', hk'⟩ := cellAt_iff.1 f1
  have hp : x.ptrEq y = true ↔ a = b := by
    unfold Slot.ptrEq
    rw [ha, hb]
    simp
  have hab : a = b ↔ c.cid = d.cid := by
    constructor
    · rintro rfl
      rw [hk] at hk'
      cases hk'
      exact e2.symm.trans f2
    · intro e
      have := id_addr hi (at_mem hk).1 (at_mem hk').1 (by simpa [e2, f2] using e)
      exact congrArg Block.addr this
  refine ⟨hp.trans hab, fun e => ⟨hsame e, ?_⟩⟩
  have hab := hab.2 e
  subst hab
  have hcd := hsame e
  subst hcd
  obtain ⟨ce1, g1, g2, -⟩ := means_parts hx ha
  obtain ⟨ce2, g3, g4, -⟩ := means_parts hy hb
  rw [g1] at g3
  cases g3
  exact g2.symm.trans g4

end

/-! ## A concrete case -/

section
attribute [local instance] sampleUnicode

/-- What `a: Obj b: [1] c: b` is read as. -/
def countedObj : Obj :=
  .mk 2 [.mk c!"a" (.obj (.mk 0 [] none)), .mk c!"b" (.arr 1 .int [.int 1]), .mk c!"c" (.arr 1 .int [.int 1])] none

/-- A program that reads `a: Obj b: [1] c: b`, gets `b` and `c`, and drops one of the two. -/
theorem countedSession : ∃ s, Lives ⟨startRt.toShared, []⟩ s ∧ s.pool = [.arr 1 .int [.int 1], .obj countedObj] ∧
    s.shared.statics = [.obj (.mk 0 [] none)] := by
  obtain ⟨st, hst⟩ : ∃ st, fromStr noFiles c!"a: Obj b: [1] c: b" startRt = .ok countedObj st := Res.gives_ok (by decide +kernel)
  have hkw : st.rt.toShared = ⟨3, some 0, none, none, none⟩ := by
    have h : (match fromStr noFiles c!"a: Obj b: [1] c: b" startRt with
      | .ok _ st => (st.rt.curId, st.rt.objS, st.rt.strS, st.rt.arrS, st.rt.tupS)
      | _ => (0, none, none, none, none)) = (3, some 0, none, none, none) := by decide +kernel
    rw [hst] at h
    dsimp only at h
    revert h
    generalize st.rt = rt
    obtain ⟨⟨a, b, c, d, e⟩, t, ot, mv⟩ := rt
    intro h
    simp only [Prod.mk.injEq] at h
    obtain ⟨rfl, rfl, rfl, rfl, rfl⟩ := h
    rfl
  have c1 := (Lives.start ⟨startRt.toShared, []⟩).call (.fromStr (rt := startRt) rfl hst)
  have c2 := c1.call (.objGet (o := countedObj) (f := c!"b") (v := .arr 1 .int [.int 1]) (by simp) rfl)
  have c3 := c2.call (.objGet (o := countedObj) (f := c!"c") (v := .arr 1 .int [.int 1]) (by simp [Session.got]) rfl)
  have c4 := Lives.drop (ps := []) (qs := [.arr 1 .int [.int 1], .obj countedObj]) c3
  refine ⟨_, c4, rfl, ?_⟩
  simp only [Session.got, hkw]
  rfl

/-- It has such a memory, in which the array has three references (the program's, `b` and `c`) and the object of the keyword two (`a` and the
static). -/
example : ∃ s m, Lives ⟨startRt.toShared, []⟩ s ∧ InMemory m s.shared s.pool ∧
    (∃ x, Means m x (.arr 1 .int [.int 1]) ∧ m.numReferences x = some 3) ∧
    ∃ x, Means m x (.obj (.mk 0 [] none)) ∧ m.numReferences x = some 2 := by
  obtain ⟨s, h, hp, hs⟩ := countedSession
  obtain ⟨m, hm⟩ := c81_history ⟨startRt.toShared, []⟩ s rfl startRt_fine h
  have key := c81_num_references s m hm [.arr 1 .int [.int 1], .obj countedObj, .obj (.mk 0 [] none)] (by decide) (by
    intro c
    rw [hp, hs]
    simp [Value.containersL, Value.containers, countedObj, Obj.containers, Pair.containersL, Obj.containersP]
    tauto)
  rw [hp, hs] at key
  refine ⟨s, m, h, hm, ?_, ?_⟩
  · obtain ⟨x, h1, h2, -⟩ := key (.arr 1 .int [.int 1]) (by simp [Value.containersL, Value.containers])
    exact ⟨x, h1, h2⟩
  · obtain ⟨x, h1, h2, -⟩ := key (.obj (.mk 0 [] none)) (by
      simp [Value.containersL, Value.containers, countedObj, Obj.containers, Pair.containersL, Obj.containersP])
    exact ⟨x, h1, h2⟩

end
end Over
