import Verif.Lemmas.Refs3
import Mathlib.Data.List.Basic

/-! # Laying out values in memory -/

namespace Over

/-- Values as the library makes them: a tuple has its elements' types, an id is used once, and what is inside a container is
older than the container. -/
structure Tidy (vs : List Value) : Prop where
  tup : ∀ id ts ws, Value.tup id ts ws ∈ Value.containersL vs → ts = ws.map Value.getType
  same : ∀ c ∈ Value.containersL vs, ∀ d ∈ Value.containersL vs, c.cid = d.cid → c = d
  older : ∀ c ∈ Value.containersL vs, ∀ d ∈ c.containers.tail, d.cid < c.cid

theorem Tidy.sub {vs ws : List Value} (h : Tidy vs) (hs : ∀ c ∈ Value.containersL ws, c ∈ Value.containersL vs) : Tidy ws :=
  ⟨fun id ts us hm => h.tup id ts us (hs _ hm), fun c hc d hd e => h.same c (hs c hc) d (hs d hd) e,
    fun c hc d hd => h.older c (hs c hc) d hd⟩

/-- `v` is an array, tuple or object. -/
def Value.IsCont : Value → Prop
  | .arr .. => True
  | .tup .. => True
  | .obj _ => True
  | _ => False

theorem containers_cont {v : Value} (h : v.IsCont) : v.containers = v :: Value.containersL v.parts := by
  cases v with
  | arr => simp [Value.containers, Value.parts]
  | tup => simp [Value.containers, Value.parts]
  | obj o =>
    obtain ⟨i, ps, par⟩ := o
    cases par <;>
      simp [Value.containers, Obj.containers, Obj.containersP, Value.parts, pair_containersL, containersL_append, Value.containersL]
  | _ => exact h.elim

theorem containers_scalar {v : Value} (h : ¬ v.IsCont) : v.containers = [] := by
  cases v <;> first | rfl | exact absurd trivial h

theorem mem_containers_cont {v c : Value} (h : c ∈ v.containers) : v.IsCont := by
  by_contra hc
  rw [containers_scalar hc] at h
  cases h

theorem hasId_cont {i : Nat} {v : Value} (h : v.hasId i = true) : v.IsCont ∧ v.cid = i := by
  cases v <;> simp_all [Value.hasId, Value.IsCont, Value.cid]

theorem cont_hasId {v : Value} (h : v.IsCont) : v.hasId v.cid = true := by
  cases v <;> simp_all [Value.hasId, Value.IsCont, Value.cid]

theorem self_containersL {vs : List Value} {v : Value} (h : v ∈ vs) (hc : v.IsCont) : v ∈ Value.containersL vs :=
  containersL_mem.2 ⟨v, h, by rw [containers_cont hc]; simp⟩

/-- The slot of a scalar. -/
theorem scalar_slot {v : Value} (h : ¬ v.IsCont) : ∃ s : Slot, s.addr = none ∧ ∀ m, Means m s v := by
  cases v with
  | null => exact ⟨.null, rfl, fun _ => .null⟩
  | bool b => exact ⟨.bool b, rfl, fun _ => .bool b⟩
  | int b => exact ⟨.int b, rfl, fun _ => .int b⟩
  | frac b => exact ⟨.frac b, rfl, fun _ => .frac b⟩
  | str b => exact ⟨.str b, rfl, fun _ => .str b⟩
  | _ => exact absurd trivial h

theorem means_addr {m : Mem} {s : Slot} {v : Value} (h : Means m s v) (hc : v.IsCont) : ∃ a, s.addr = some a := by
  cases h <;> first | exact ⟨_, rfl⟩ | exact hc.elim

theorem meansL_perm {m : Mem} {vs vs' : List Value} (hp : vs.Perm vs') : ∀ {ss : List Slot}, MeansL m ss vs →
    ∃ ss', ss.Perm ss' ∧ MeansL m ss' vs' := by
  induction hp with
  | nil => exact fun h => ⟨_, .refl _, h⟩
  | cons x _ ih =>
    intro ss h
    cases h with
    | cons h1 h2 =>
      obtain ⟨ss', h3, h4⟩ := ih h2
      exact ⟨_, h3.cons _, .cons h1 h4⟩
  | swap x y l =>
    intro ss h
    cases h with
    | cons h1 h2 =>
      cases h2 with
      | cons h2 h3 => exact ⟨_, .swap _ _ _, .cons h2 (.cons h1 h3)⟩
  | trans _ _ ih1 ih2 =>
    intro ss h
    obtain ⟨s1, h1, h2⟩ := ih1 h
    obtain ⟨s2, h3, h4⟩ := ih2 h2
    exact ⟨s2, h1.trans h3, h4⟩

theorem meansL_split {m : Mem} : ∀ (vs : List Value) {vs' : List Value} {ss : List Slot}, MeansL m ss (vs ++ vs') →
    ∃ s1 s2, ss = s1 ++ s2 ∧ MeansL m s1 vs ∧ MeansL m s2 vs'
  | [], _, ss, h => ⟨[], ss, rfl, .nil, h⟩
  | _ :: vs, _, _, .cons h1 h2 => by
    obtain ⟨s1, s2, rfl, h3, h4⟩ := meansL_split vs h2
    exact ⟨_ :: s1, s2, rfl, .cons h1 h3, h4⟩

theorem meansF_of_values {m : Mem} : ∀ (ps : List Pair) {ss : List Slot}, MeansL m ss (ps.map Pair.value) →
    ∃ fs : List (Str × Slot), fs.map Prod.snd = ss ∧ MeansF m fs ps
  | [], _, .nil => ⟨[], rfl, .nil⟩
  | .mk f v :: ps, _, .cons h1 h2 => by
    obtain ⟨fs, rfl, h3⟩ := meansF_of_values ps h2
    exact ⟨(f, _) :: fs, rfl, .cons h1 h3⟩

theorem meansP_of_values {m : Mem} (par : Option Obj) {ss : List Slot} (h : MeansL m ss (par.map Value.obj).toList) :
    ∃ a : Option Nat, (a.map Slot.obj).toList = ss ∧ MeansP m a par := by
  cases par with
  | none => cases h; exact ⟨none, rfl, .none⟩
  | some o =>
    cases h with
    | cons h1 h2 =>
      cases h2
      cases h1 with
      | obj h => exact ⟨some _, rfl, .some h⟩

theorem fresh_addr (m : Mem) : ∃ a, m.at a = none := by
  have : ∃ a, ∀ b ∈ m.blocks, b.addr < a := by
    induction m.blocks with
    | nil => exact ⟨0, by simp⟩
    | cons b bs ih =>
      obtain ⟨a, ha⟩ := ih
      refine ⟨max a (b.addr + 1), ?_⟩
      intro x hx
      rcases List.mem_cons.1 hx with rfl | hx
      · omega
      · have := ha x hx; omega
  obtain ⟨a, ha⟩ := this
  refine ⟨a, ?_⟩
  unfold Mem.at
  rw [List.find?_eq_none]
  intro b hb
  have := ha b hb
  simp only [beq_iff_eq]
  omega

theorem MemExec.trans {m m' m'' : Mem} (h : MemExec m m') (h' : MemExec m' m'') : MemExec m m'' := by
  induction h' with
  | nil => exact h
  | snoc _ h2 ih => exact .snoc ih h2

/-- What a thread owns keeps its meaning. -/
theorem keep_held {m m' : Mem} (hm' : m'.Inv) (hst : SameCells m m') {t : Nat} {s : Slot} {v : Value} (h : Means m s v)
    (hh : (t, s) ∈ m'.held) : Means m' s v := means_keep hst hm' h (hm'.fitsH _ hh)

/-- An execution that only adds to what threads own, and does not move the counter. -/
structure Grows (m m' : Mem) (t : Nat) (ss : List Slot) : Prop where
  exec : MemExec m m'
  drop : m'.dropping = m.dropping
  held : m'.held = (ss.map (Prod.mk t) : Multiset (Nat × Slot)) + m.held
  keep : ∀ t s v, (t, s) ∈ m.held → Means m s v → Means m' s v

theorem Grows.inv {m m' : Mem} {t : Nat} {ss : List Slot} (h : Grows m m' t ss) (hm : m.Inv) : m'.Inv := hm.exec h.exec

theorem Grows.refl (m : Mem) (t : Nat) : Grows m m t [] := ⟨.nil m, rfl, by simp, fun _ _ _ _ h => h⟩

theorem Grows.trans {m m' m'' : Mem} {t : Nat} {ss ss' : List Slot} (h : Grows m m' t ss) (h' : Grows m' m'' t ss') :
    Grows m m'' t (ss' ++ ss) where
  exec := h.exec.trans h'.exec
  drop := h'.drop.trans h.drop
  held := by rw [h'.held, h.held, List.map_append, ← Multiset.coe_add, Multiset.add_assoc]
  keep t s v hh hv := h'.keep t s v (by rw [h.held]; exact Multiset.mem_add.2 (.inr hh)) (h.keep t s v hh hv)

theorem Grows.keepL {m m' : Mem} {t t' : Nat} {ss : List Slot} (h : Grows m m' t ss) : ∀ {us : List Slot} {vs : List Value},
    MeansL m us vs → (∀ s ∈ us, (t', s) ∈ m.held) → MeansL m' us vs
  | _, _, .nil, _ => .nil
  | _, _, .cons h1 h2, hh => .cons (h.keep t' _ _ (hh _ (by simp)) h1) (Grows.keepL h h2 fun s hs => hh s (List.mem_cons_of_mem _ hs))

/-- One more handle of something inside what is owned. -/
theorem grow_clone {m : Mem} (hm : m.Inv) {t t' : Nat} {s : Slot} {v c : Value} (hh : (t', s) ∈ m.held) (hv : Means m s v)
    (hc : c ∈ v.containers) : ∃ m' s', Grows m m' t [s'] ∧ m'.nextId = m.nextId ∧ Means m' s' c := by
  obtain ⟨s', a, h1, h2, h3⟩ := (hm.containers hv (hm.fitsH _ hh) c).1 hc
  have hst := MemStep.clone m t t' s s' hh h1
  have hm' := hm.step hst
  have hk := sameCells_step hst
  refine ⟨_, s', ⟨.snoc (.nil m) hst, rfl, by simp, ?_⟩, rfl, keep_held hm' hk h3 (t := t) (Multiset.mem_cons_self _ _)⟩
  intro t s v hh hv
  exact keep_held hm' hk hv (t := t) (Multiset.mem_cons_of_mem hh)

theorem grow_scalar {m : Mem} (hm : m.Inv) (t : Nat) {v : Value} (hc : ¬ v.IsCont) :
    ∃ m' s', Grows m m' t [s'] ∧ m'.nextId = m.nextId ∧ Means m' s' v := by
  obtain ⟨s', h1, h2⟩ := scalar_slot hc
  have hst := MemStep.scalar m t s' h1
  have hm' := hm.step hst
  have hk := sameCells_step hst
  refine ⟨_, s', ⟨.snoc (.nil m) hst, rfl, by simp, ?_⟩, rfl, h2 _⟩
  intro t s v hh hv
  exact keep_held hm' hk hv (t := t) (Multiset.mem_cons_of_mem hh)

/-- Further handles of one container. -/
theorem grow_clones {m : Mem} (hm : m.Inv) {t t' : Nat} {s : Slot} {c : Value} (hh : (t', s) ∈ m.held) (hv : Means m s c)
    (hc : c.IsCont) : ∀ k : Nat, ∃ m' ss, Grows m m' t ss ∧ m'.nextId = m.nextId ∧ MeansL m' ss (List.replicate k c)
  | 0 => ⟨m, [], .refl m t, rfl, .nil⟩
  | k + 1 => by
    obtain ⟨m1, ss, h1, h2, h3⟩ := grow_clones (t := t) hm hh hv hc k
    obtain ⟨m2, s', h4, h5, h6⟩ := grow_clone (t := t) (h1.inv hm) (by rw [h1.held]; exact Multiset.mem_add.2 (.inr hh))
      (h1.keep t' s c hh hv) (c := c) (by rw [containers_cont hc]; simp)
    refine ⟨m2, s' :: ss, h1.trans h4, h5.trans h2, .cons h6 (h4.keepL (t' := t) h3 ?_)⟩
    intro s hs
    rw [h1.held]
    exact Multiset.mem_add.2 (.inl (by simpa using hs))

/-- The containers that are there already can be reached. -/
def Mem.Has (m : Mem) (c : Value) : Prop := ∃ t s v, (t, s) ∈ m.held ∧ Means m s v ∧ c ∈ v.containers

theorem Mem.Has.grows {m m' : Mem} {t : Nat} {ss : List Slot} {c : Value} (h : m.Has c) (hg : Grows m m' t ss) : m'.Has c := by
  obtain ⟨t', s, v, h1, h2, h3⟩ := h
  exact ⟨t', s, v, by rw [hg.held]; exact Multiset.mem_add.2 (.inr h1), hg.keep t' s v h1 h2, h3⟩

/-- Handles of what is there already. -/
theorem grow_old {m : Mem} (hm : m.Inv) (t : Nat) : ∀ vs : List Value, (∀ c ∈ Value.containersL vs, m.Has c) →
    ∃ m' ss, Grows m m' t ss ∧ m'.nextId = m.nextId ∧ MeansL m' ss vs
  | [], _ => ⟨m, [], .refl m t, rfl, .nil⟩
  | v :: vs, h => by
    obtain ⟨m1, ss, h1, h2, h3⟩ := grow_old hm t vs fun c hc => h c (by simp [Value.containersL, hc])
    have : ∃ m2 s', Grows m1 m2 t [s'] ∧ m2.nextId = m1.nextId ∧ Means m2 s' v := by
      by_cases hv : v.IsCont
      · obtain ⟨t', s, w, e1, e2, e3⟩ := (h v (self_containersL (by simp) hv)).grows h1
        exact grow_clone (h1.inv hm) e1 e2 e3
      · exact grow_scalar (h1.inv hm) t hv
    obtain ⟨m2, s', h4, h5, h6⟩ := this
    refine ⟨m2, s' :: ss, h1.trans h4, h5.trans h2, .cons h6 (h4.keepL (t' := t) h3 ?_)⟩
    intro s hs
    rw [h1.held]
    exact Multiset.mem_add.2 (.inl (by simpa using hs))

/-- A new container from its parts. -/
theorem build {m : Mem} (hm : m.Inv) {t : Nat} {ss : List Slot} {H : Multiset (Nat × Slot)} {c : Value} (hc : c.IsCont)
    (hid : c.cid = m.nextId) (htup : ∀ id ts ws, c = .tup id ts ws → ts = ws.map Value.getType) (hss : MeansL m ss c.parts)
    (hh : m.held = (ss.map (Prod.mk t) : Multiset (Nat × Slot)) + H) :
    ∃ m' s, MemStep m m' ∧ m'.nextId = m.nextId + 1 ∧ m'.dropping = m.dropping ∧ m'.held = (t, s) ::ₘ H ∧ Means m' s c ∧
      ∀ t s v, (t, s) ∈ H → Means m s v → Means m' s v := by
  obtain ⟨a, ha⟩ := fresh_addr m
  have hle : (ss.map (Prod.mk t) : Multiset (Nat × Slot)) ≤ m.held := by rw [hh]; exact Multiset.le_add_right _ _
  have hsub : m.held - (ss.map (Prod.mk t) : Multiset (Nat × Slot)) = H := by
    rw [hh, Multiset.add_comm]; exact Multiset.add_sub_cancel_right
  have main : ∀ ce : Cell, ce.slots = ss → MemStep m (m.alloc t a ce) → Means (m.alloc t a ce) (ce.handle a) c →
      ∃ m' s, MemStep m m' ∧ m'.nextId = m.nextId + 1 ∧ m'.dropping = m.dropping ∧ m'.held = (t, s) ::ₘ H ∧ Means m' s c ∧
      ∀ t s v, (t, s) ∈ H → Means m s v → Means m' s v := by
    intro ce hce hst hmean
    have hheld : (m.alloc t a ce).held = (t, ce.handle a) ::ₘ H := by
      change (t, ce.handle a) ::ₘ (m.held - _) = _
      rw [hce, hsub]
    refine ⟨_, ce.handle a, hst, rfl, rfl, hheld, hmean, ?_⟩
    intro t s v h1 h2
    exact keep_held (hm.step hst) (sameCells_step hst) h2 (t := t) (by rw [hheld]; exact Multiset.mem_cons_of_mem h1)
  have hat : ∀ ce : Cell, (m.alloc t a ce).at a = some ⟨a, 1, ce⟩ := by
    intro ce
    unfold Mem.at Mem.alloc
    rw [List.find?_cons_of_pos (by simp)]
  cases c with
  | arr id ty vs =>
    have hid' : id = m.nextId := hid
    subst hid'
    have hst := MemStep.newArr m t a ty ss ha hle
    exact main _ rfl hst (.arr (hat _) (meansL_keep (sameCells_step hst) (hm.step hst) hss
      fun s hs => fits_part (hm.step hst) (hat _) hs))
  | tup id ts vs =>
    have hid' : id = m.nextId := hid
    subst hid'
    have hst := MemStep.newTup m t a ss ha hle
    have hts : ts = ss.map m.typeOf := (htup _ _ _ rfl).trans (typeOf_meansL hss).symm
    subst hts
    exact main _ rfl hst (.tup (hat _) (meansL_keep (sameCells_step hst) (hm.step hst) hss
      fun s hs => fits_part (hm.step hst) (hat _) hs))
  | obj o =>
    obtain ⟨id, ps, par⟩ := o
    have hid' : id = m.nextId := hid
    subst hid'
    obtain ⟨s1, s2, e, h1, h2⟩ := meansL_split _ hss
    obtain ⟨fs, e1, h3⟩ := meansF_of_values ps h1
    obtain ⟨p, e2, h4⟩ := meansP_of_values par h2
    have hsl : (Cell.obj m.nextId fs p).slots = ss := by
      simp only [Cell.slots, e1, e2, e]
    have hst := MemStep.newObj m t a fs p ha (by rw [hsl]; exact hle)
    exact main _ hsl hst (.obj (.mk (hat _)
      (meansF_keep (sameCells_step hst) (hm.step hst) h3 fun s hs => fits_part (hm.step hst) (hat _) (List.mem_append_left _ hs))
      (meansP_keep (sameCells_step hst) (hm.step hst) h4 fun s hs => fits_part (hm.step hst) (hat _) (List.mem_append_right _ hs))))
  | _ => exact hc.elim

/-- All elements with this id are the same container. -/
theorem filter_replicate {vs : List Value} {c : Value} {i : Nat} (h : ∀ v ∈ vs, v.hasId i = true → v = c) :
    vs.filter (Value.hasId i) = List.replicate (vs.filter (Value.hasId i)).length c := by
  rw [List.eq_replicate_iff]
  refine ⟨rfl, fun v hv => ?_⟩
  obtain ⟨h1, h2⟩ := List.mem_filter.1 hv
  exact h v h1 h2

/-- Values whose containers are either there already or newer than everything can be laid out, from any state: only new
references and new containers are made. -/
theorem layout {m : Mem} (hm : m.Inv) (t : Nat) : ∀ (n : Nat) (vs : List Value), Tidy vs →
    (∀ c ∈ Value.containersL vs, c.cid < m.nextId + n) → (∀ c ∈ Value.containersL vs, c.cid < m.nextId → m.Has c) →
    ∃ m' ss, Grows m m' t ss ∧ m'.nextId = m.nextId + n ∧ MeansL m' ss vs := by
  intro n
  induction n with
  | zero =>
    intro vs _ hlt hold
    obtain ⟨m', ss, h1, h2, h3⟩ := grow_old hm t vs fun c hc => hold c hc (by simpa using hlt c hc)
    exact ⟨m', ss, h1, h2, h3⟩
  | succ n ih =>
    intro vs ht hlt hold
    by_cases hex : ∃ c ∈ vs, c.hasId (m.nextId + n) = true
    · obtain ⟨c, hcm, hci⟩ := hex
      obtain ⟨hcc, hcid⟩ := hasId_cont hci
      have hcs := self_containersL hcm hcc
      have huniq : ∀ v ∈ vs, v.hasId (m.nextId + n) = true → v = c := by
        intro v hv hvi
        obtain ⟨h1, h2⟩ := hasId_cont hvi
        exact ht.same v (self_containersL hv h1) c hcs (h2.trans hcid.symm)
      have hin : ∀ d ∈ Value.containersL c.parts, d ∈ c.containers.tail := by
        intro d hd; rw [containers_cont hcc]; exact hd
      have hsub : ∀ d ∈ Value.containersL (vs.filter (fun v => !v.hasId (m.nextId + n)) ++ c.parts), d ∈ Value.containersL vs := by
        intro d hd
        rw [containersL_append, List.mem_append] at hd
        rcases hd with hd | hd
        · obtain ⟨v, hv, hd⟩ := containersL_mem.1 hd
          exact containersL_mem.2 ⟨v, (List.mem_filter.1 hv).1, hd⟩
        · exact containersL_mem.2 ⟨c, hcm, List.mem_of_mem_tail (hin d hd)⟩
      have hlt' : ∀ d ∈ Value.containersL (vs.filter (fun v => !v.hasId (m.nextId + n)) ++ c.parts), d.cid < m.nextId + n := by
        intro d hd
        have h1 := hlt d (hsub d hd)
        rw [containersL_append, List.mem_append] at hd
        rcases hd with hd | hd
        · obtain ⟨v, hv, hdv⟩ := containersL_mem.1 hd
          obtain ⟨hv1, hv2⟩ := List.mem_filter.1 hv
          have hvc := mem_containers_cont hdv
          have hvl := hlt v (self_containersL hv1 hvc)
          rw [containers_cont hvc] at hdv
          have hne : v.cid ≠ m.nextId + n := by
            intro e
            have := cont_hasId hvc
            rw [e] at this
            simp [this] at hv2
          rcases List.mem_cons.1 hdv with rfl | hdv
          · omega
          · have := ht.older v (self_containersL hv1 hvc) d (by rw [containers_cont hvc]; exact hdv)
            omega
        · have := ht.older c hcs d (hin d hd)
          omega
      obtain ⟨m1, ss, h1, h2, h3⟩ := ih _ (ht.sub hsub) hlt' (fun d hd hdl => hold d (hsub d hd) hdl)
      obtain ⟨s1, s2, rfl, h4, h5⟩ := meansL_split _ h3
      have hm1 := h1.inv hm
      obtain ⟨m2, s, hst, e1, e2, e3, e4, e5⟩ := build hm1 (t := t) (ss := s2)
        (H := (s1.map (Prod.mk t) : Multiset (Nat × Slot)) + m.held) hcc (hcid.trans h2.symm)
        (fun id ts ws e => ht.tup id ts ws (e ▸ hcs)) h5
        (by
          rw [h1.held, List.map_append, ← Multiset.coe_add, Multiset.add_comm (s1.map (Prod.mk t) : Multiset (Nat × Slot)), Multiset.add_assoc])
      have hm2 := hm1.step hst
      have hk : vs.filter (Value.hasId (m.nextId + n)) ≠ [] := by
        intro e
        have : c ∈ vs.filter (Value.hasId (m.nextId + n)) := List.mem_filter.2 ⟨hcm, hci⟩
        rw [e] at this
        cases this
      obtain ⟨k, hk⟩ : ∃ k, (vs.filter (Value.hasId (m.nextId + n))).length = k + 1 :=
        ⟨_, (Nat.succ_pred_eq_of_pos (List.length_pos_iff.2 hk)).symm⟩
      have hg : Grows m m2 t (s :: s1) := by
        refine ⟨.snoc h1.exec hst, e2.trans h1.drop, ?_, ?_⟩
        · rw [e3, List.map_cons, ← Multiset.cons_coe, Multiset.cons_add]
        · intro t' s' v hh hv
          exact e5 t' s' v (Multiset.mem_add.2 (.inr hh)) (h1.keep t' s' v hh hv)
      obtain ⟨m3, ss3, g1, g2, g3⟩ := grow_clones hm2 (t := t) (t' := t) (s := s) (by rw [e3]; exact Multiset.mem_cons_self _ _)
        e4 hcc k
      have hs1 : MeansL m2 (s :: s1) (c :: vs.filter (fun v => !v.hasId (m.nextId + n))) := by
        refine .cons e4 ?_
        have : ∀ {us : List Slot} {ws : List Value}, MeansL m1 us ws → (∀ u ∈ us, u ∈ s1) → MeansL m2 us ws := by
          intro us ws h
          induction ws generalizing us with
          | nil => cases h; exact fun _ => .nil
          | cons w ws ih =>
            cases h with
            | cons h1 h2 =>
              intro hu
              exact .cons (e5 t _ _ (Multiset.mem_add.2 (.inl (by simpa using hu _ (by simp)))) h1)
                (ih h2 fun u h => hu u (List.mem_cons_of_mem _ h))
        exact this h4 fun _ h => h
      have hall : MeansL m3 (ss3 ++ (s :: s1)) (List.replicate k c ++ c :: vs.filter (fun v => !v.hasId (m.nextId + n))) := by
        refine meansL_append g3 (g1.keepL (t' := t) hs1 ?_)
        intro u hu
        rw [hg.held]
        refine Multiset.mem_add.2 (.inl ?_)
        rw [Multiset.mem_coe, List.mem_map]
        exact ⟨u, hu, rfl⟩
      have hperm : (List.replicate k c ++ c :: vs.filter (fun v => !v.hasId (m.nextId + n))).Perm vs := by
        have h6 := List.filter_append_perm (Value.hasId (m.nextId + n)) vs
        refine List.Perm.trans ?_ h6
        rw [filter_replicate huniq, hk, List.replicate_succ]
        exact List.perm_middle
      obtain ⟨ss', p1, p2⟩ := meansL_perm hperm hall
      have hg3 := hg.trans g1
      refine ⟨m3, ss', ⟨hg3.exec, hg3.drop, ?_, hg3.keep⟩, ?_, p2⟩
      · rw [hg3.held]
        congr 1
        exact Multiset.coe_eq_coe.2 (p1.map _)
      · rw [g2, e1, h2]; omega
    · have hlt' : ∀ c ∈ Value.containersL vs, c.cid < m.nextId + n := by
        intro d hd
        have h1 := hlt d hd
        obtain ⟨v, hv, hdv⟩ := containersL_mem.1 hd
        have hvc := mem_containers_cont hdv
        have hvl := hlt v (self_containersL hv hvc)
        have hne : v.cid ≠ m.nextId + n := fun e => hex ⟨v, hv, by rw [← e]; exact cont_hasId hvc⟩
        rw [containers_cont hvc] at hdv
        rcases List.mem_cons.1 hdv with rfl | hdv
        · omega
        · have := ht.older v (self_containersL hv hvc) d (by rw [containers_cont hvc]; exact hdv)
          omega
      obtain ⟨m1, ss, h1, h2, h3⟩ := ih vs ht hlt' hold
      have hst := MemStep.tick m1
      have hm1 := h1.inv hm
      have hg : Grows m1 { m1 with nextId := m1.nextId + 1 } t [] := by
        refine ⟨.snoc (.nil _) hst, rfl, by simp, fun t s v hh hv => keep_held (hm1.step hst) (sameCells_step hst) hv (t := t) hh⟩
      refine ⟨_, ss, by simpa using h1.trans hg, by simp [h2, Nat.add_assoc], hg.keepL (t' := t) h3 ?_⟩
      intro s hs
      rw [h1.held]
      exact Multiset.mem_add.2 (.inl (by simpa using hs))

end Over
