import Verif.Spec.Identity
import Verif.Lemmas.Include

/-! # Same id, same container: a registry of the containers seen so far -/

namespace Over

theorem containersL_mem {vs : List Value} {c : Value} : c ∈ Value.containersL vs ↔ ∃ v ∈ vs, c ∈ v.containers := by
  induction vs with
  | nil => simp [Value.containersL]
  | cons v vs ih => simp [Value.containersL, ih]

theorem pairContainersL_mem {ps : List Pair} {c : Value} :
    c ∈ Pair.containersL ps ↔ ∃ p ∈ ps, c ∈ p.value.containers := by
  induction ps with
  | nil => simp [Pair.containersL]
  | cons p ps ih => cases p; simp [Pair.containersL, ih, Pair.value]

/-- The registered containers. -/
abbrev Reg := Nat → Option Value

/-- All containers of the value are registered. -/
def Registered (r : Reg) (v : Value) : Prop := ∀ c ∈ v.containers, r c.cid = some c

/-- `r'` knows more than `r`. -/
def Reg.Le (r r' : Reg) : Prop := ∀ i c, r i = some c → r' i = some c

theorem Registered.mono {r r' : Reg} (h : r.Le r') {v : Value} (hv : Registered r v) : Registered r' v :=
  fun c hc => h _ _ (hv c hc)

/-- The keyword object with this id. -/
def keywordObj (i : Nat) : Value := .obj (.mk i [] none)

/-- The registry fits the state; `N` is the counter at the start. -/
structure RegOk (N : Nat) (rt : Rt) (r : Reg) : Prop where
  fine : rt.Fine
  start : N ≤ rt.curId
  cid : ∀ i c, r i = some c → c.cid = i ∧ i < rt.curId
  kw : ∀ k i, rt.keyword k = some i → r i = none ∨ r i = some (keywordObj i)
  old : ∀ i c, r i = some c → N ≤ i ∨ ∃ k, rt.keyword k = some i ∧ c = keywordObj i
  older : ∀ i c, r i = some c → ∀ d ∈ c.containers.tail, d.cid < i

/-- Registering one more container. -/
def Reg.add (r : Reg) (i : Nat) (c : Value) : Reg := fun j => if j = i then some c else r j

theorem Reg.le_add {r : Reg} {i : Nat} {c : Value} (h : r i = none ∨ r i = some c) : r.Le (r.add i c) := by
  intro j d hj
  unfold Reg.add
  by_cases e : j = i
  · subst e
    rw [if_pos rfl]
    rcases h with h | h <;> rw [h] at hj <;> cases hj
    rfl
  · rw [if_neg e]; exact hj

/-- A new container. -/
theorem RegOk.next {N : Nat} {rt : Rt} {r : Reg} (h : RegOk N rt r) {c : Value} (hc : c.cid = rt.curId)
    (hin : ∀ d ∈ c.containers.tail, r d.cid = some d) :
    RegOk N rt.next (r.add rt.curId c) ∧ r.Le (r.add rt.curId c) := by
  have hnone : r rt.curId = none := by
    cases hr : r rt.curId with
    | none => rfl
    | some d => have := (h.cid _ _ hr).2; omega
  have hlt := rt.next_lt
  refine ⟨⟨Rt.next_fine h.fine, by have := h.start; omega, ?_, ?_, ?_, ?_⟩, Reg.le_add (.inl hnone)⟩
  · intro i d hd
    unfold Reg.add at hd
    by_cases e : i = rt.curId
    · rw [if_pos e] at hd
      cases hd
      exact ⟨hc.trans e.symm, by omega⟩
    · rw [if_neg e] at hd
      obtain ⟨h1, h2⟩ := h.cid i d hd
      exact ⟨h1, by omega⟩
  · intro k i hk
    unfold Reg.add
    cases hs : rt.keyword k with
    | some j =>
      have := Rt.next_keyword hs
      rw [hk] at this
      cases this
      have h1 := (h.fine k i hs).1
      rw [if_neg (by show ¬ i = rt.curId; have : i < rt.curId := h1; omega)]
      exact h.kw k i hs
    | none =>
      obtain ⟨s, h1, h2, h3⟩ := rt.next_moves
      have h4 := h1.new k i (by rw [h3]; exact hs) hk
      rw [if_neg (by omega)]
      left
      cases hr : r i with
      | none => rfl
      | some d => have := (h.cid _ _ hr).2; omega
  · intro i d hd
    unfold Reg.add at hd
    by_cases e : i = rt.curId
    · exact .inl (e ▸ h.start)
    · rw [if_neg e] at hd
      rcases h.old i d hd with h1 | ⟨k, h1, h2⟩
      · exact .inl h1
      · exact .inr ⟨k, Rt.next_keyword h1, h2⟩
  · intro i d hd x hx
    unfold Reg.add at hd
    by_cases e : i = rt.curId
    · rw [if_pos e] at hd
      cases hd
      have := (h.cid _ _ (hin x hx)).2
      omega
    · rw [if_neg e] at hd
      exact h.older i d hd x hx

/-- A keyword object. -/
theorem RegOk.keyword {N : Nat} {k : IncKind} {st st' : ESt} {i : Nat} {r : Reg} (h : RegOk N st.rt r)
    (hk : KwStep k st i st') (hnew : ∀ k' j, st'.rt.keyword k' = some j → st.rt.keyword k' = some j ∨ st.rt.curId ≤ j) :
    RegOk N st'.rt (r.add i (keywordObj i)) ∧ r.Le (r.add i (keywordObj i)) := by
  have hi : r i = none ∨ r i = some (keywordObj i) := by
    rcases hnew k i hk.now with h1 | h1
    · exact h.kw k i h1
    · left
      cases hr : r i with
      | none => rfl
      | some d => have := (h.cid _ _ hr).2; omega
  have hf := hk.fine h.fine
  have hle := hk.le
  refine ⟨⟨hf, h.start.trans hle, ?_, ?_, ?_, ?_⟩, Reg.le_add hi⟩
  · intro j d hd
    unfold Reg.add at hd
    by_cases e : j = i
    · rw [if_pos e] at hd
      cases hd
      have : i < st'.rt.curId := (hf k i hk.now).1
      exact ⟨e.symm, by omega⟩
    · rw [if_neg e] at hd
      obtain ⟨h1, h2⟩ := h.cid j d hd
      exact ⟨h1, by omega⟩
  · intro k' j hj
    unfold Reg.add
    by_cases e : j = i
    · subst e; exact .inr (by simp)
    · rw [if_neg e]
      rcases hnew k' j hj with h1 | h1
      · exact h.kw k' j h1
      · left
        cases hr : r j with
        | none => rfl
        | some d => have := (h.cid _ _ hr).2; omega
  · intro j d hd
    unfold Reg.add at hd
    by_cases e : j = i
    · rw [if_pos e] at hd
      cases hd
      exact .inr ⟨k, e ▸ hk.now, by rw [e]⟩
    · rw [if_neg e] at hd
      rcases h.old j d hd with h1 | ⟨k', h1, h2⟩
      · exact .inl h1
      · exact .inr ⟨k', hk.keeps k' j h1, h2⟩
  · intro j d hd x hx
    unfold Reg.add at hd
    by_cases e : j = i
    · rw [if_pos e] at hd
      cases hd
      simp [keywordObj, Value.containers, Obj.containers, Pair.containersL, Obj.containersP] at hx
    · rw [if_neg e] at hd
      exact h.older j d hd x hx

/-- Keyword objects that appear while one is asked for are new. -/
theorem keywordId_new {k : IncKind} {st st' : ESt} {i : Nat} (h : EM.keywordId k st = .ok (i, st')) (k' : IncKind) (j : Nat)
    (hj : st'.rt.keyword k' = some j) : st.rt.keyword k' = some j ∨ st.rt.curId ≤ j := by
  rw [keywordId_eq] at h
  cases hk : st.rt.keyword k with
  | some m => rw [hk] at h; cases h; exact .inl hj
  | none =>
    rw [hk] at h
    cases h
    have hm := fun s => st.rt.moveOn st.rt.time s
    cases hs : st.rt.keyword k' with
    | some m =>
      left
      obtain ⟨i2, st2, h1, h2⟩ := keywordId_step k st
      rw [keywordId_eq, hk] at h1
      cases h1
      have := h2.keeps k' m hs
      rw [hj] at this
      exact this.symm
    | none =>
      right
      by_cases e : k' = k
      · subst e
        obtain ⟨i2, st2, h1, h2⟩ := keywordId_step k' st
        rw [keywordId_eq, hk] at h1
        cases h1
        have := h2.now
        rw [hj] at this
        cases this
        exact Nat.le_refl _
      · have h5 := ((hm _).new k' j ?_ hj).1
        · refine Nat.le_trans ?_ h5
          cases k <;> exact Nat.le_succ _
        · cases k <;> cases k' <;> first | exact absurd rfl e | exact hs

/-- The registry as an invariant of evaluation. -/
def regInv (N : Nat) : EvalInv Reg (fun _ => True) where
  I σ := RegOk N σ.1.rt σ.2 ∧ (∀ g v, StrMap.get σ.1.globals g = some v → Registered σ.2 v) ∧
    ∀ f v, StrMap.get σ.1.cache f = some v → Registered σ.2 v
  R σ τ := σ.2.Le τ.2
  V σ v := Registered σ.2 v
  refl σ := fun _ _ h => h
  trans h1 h2 := fun i c h => h2 i c (h1 i c h)
  mono _ _ h hv := hv.mono h
  null _ := by intro c hc; simp [Value.containers] at hc
  bool _ _ := by intro c hc; simp [Value.containers] at hc
  int _ _ := by intro c hc; simp [Value.containers] at hc
  frac _ _ := by intro c hc; simp [Value.containers] at hc
  str _ _ := by intro c hc; simp [Value.containers] at hc
  ofArr _ h v hv c hc := h c (by simp only [Value.containers, List.mem_cons]; exact .inr (containersL_mem.2 ⟨v, hv, hc⟩))
  ofTup _ h v hv c hc := h c (by simp only [Value.containers, List.mem_cons]; exact .inr (containersL_mem.2 ⟨v, hv, hc⟩))
  ofObj {σ o} _ h p hp c hc := h c (by
    cases o
    simp only [Value.containers, Obj.containers, List.mem_cons, List.mem_append]
    exact .inr (.inl (pairContainersL_mem.2 ⟨p, hp, hc⟩)))
  newArr {σ} t vs hI hv := by
    obtain ⟨h1, h2⟩ := hI.1.next (c := .arr σ.1.rt.curId t vs) rfl (by
      intro d hd
      simp only [Value.containers, List.tail_cons] at hd
      obtain ⟨v, hvm, hc⟩ := containersL_mem.1 hd
      exact hv v hvm d hc)
    refine ⟨_, ⟨h1, fun g v h => (hI.2.1 g v h).mono h2, fun g v h => (hI.2.2 g v h).mono h2⟩, h2, ?_⟩
    intro c hc
    simp only [Value.containers, List.mem_cons] at hc
    rcases hc with rfl | hc
    · exact if_pos rfl
    · obtain ⟨v, hvm, hc⟩ := containersL_mem.1 hc
      exact h2 _ _ (hv v hvm c hc)
  newTup {σ} t vs hI hv := by
    obtain ⟨h1, h2⟩ := hI.1.next (c := .tup σ.1.rt.curId t vs) rfl (by
      intro d hd
      simp only [Value.containers, List.tail_cons] at hd
      obtain ⟨v, hvm, hc⟩ := containersL_mem.1 hd
      exact hv v hvm d hc)
    refine ⟨_, ⟨h1, fun g v h => (hI.2.1 g v h).mono h2, fun g v h => (hI.2.2 g v h).mono h2⟩, h2, ?_⟩
    intro c hc
    simp only [Value.containers, List.mem_cons] at hc
    rcases hc with rfl | hc
    · exact if_pos rfl
    · obtain ⟨v, hvm, hc⟩ := containersL_mem.1 hc
      exact h2 _ _ (hv v hvm c hc)
  newObj {σ} ps par hI hv hq := by
    obtain ⟨h1, h2⟩ := hI.1.next (c := .obj (.mk σ.1.rt.curId ps par)) rfl (by
      intro d hd
      simp only [Value.containers, Obj.containers, List.tail_cons, List.mem_append] at hd
      rcases hd with hd | hd
      · obtain ⟨p, hp, hc⟩ := pairContainersL_mem.1 hd
        exact hv p hp d hc
      · cases par with
        | none => simp [Obj.containersP] at hd
        | some q => exact hq q rfl d (by simpa [Obj.containersP, Value.containers] using hd))
    refine ⟨_, ⟨h1, fun g v h => (hI.2.1 g v h).mono h2, fun g v h => (hI.2.2 g v h).mono h2⟩, h2, ?_⟩
    intro c hc
    simp only [Value.containers, Obj.containers, List.mem_cons, List.mem_append] at hc
    rcases hc with rfl | hc | hc
    · exact if_pos rfl
    · obtain ⟨p, hp, hc⟩ := pairContainersL_mem.1 hc
      exact h2 _ _ (hv p hp c hc)
    · cases par with
      | none => simp [Obj.containersP] at hc
      | some q => exact h2 _ _ (hq q rfl c (by simpa [Obj.containersP, Value.containers] using hc))
  keyword {σ} k hI := by
    intro i st' h
    obtain ⟨j, st2, h1, h2⟩ := keywordId_step k σ.1
    have hnew := keywordId_new h
    rw [h1] at h
    cases h
    obtain ⟨h3, h4⟩ := hI.1.keyword h2 hnew
    refine ⟨_, ⟨h3, ?_, ?_⟩, h4, ?_⟩
    · intro g v hg
      change StrMap.get st'.globals g = _ at hg
      rw [h2.globals] at hg
      exact (hI.2.1 g v hg).mono h4
    · intro g v hg
      change StrMap.get st'.cache g = _ at hg
      rw [h2.cache] at hg
      exact (hI.2.2 g v hg).mono h4
    · intro c hc
      simp only [Value.containers, Obj.containers, Pair.containersL, Obj.containersP, List.append_nil,
        List.mem_cons, List.not_mem_nil, or_false] at hc
      subst hc
      exact if_pos rfl
  global {σ g v} hI h := hI.2.1 g v h
  setGlobal {σ τ g v} _ _ _ hI hr hv := by
    refine ⟨⟨hI.1, ?_, hI.2.2⟩, hr, fun _ h => h⟩
    intro x w hx
    change StrMap.get (StrMap.insert _ _ _) x = _ at hx
    by_cases e : x = g
    · subst e
      rw [StrMap.get_insert_self] at hx
      cases hx
      exact hv
    · rw [StrMap.get_insert_ne _ _ e] at hx
      exact hI.2.1 x w hx

theorem regFiles (N : Nat) : (regInv N).Files where
  enter h := ⟨h.1, (by intro g v hg; cases hg), h.2.2⟩
  leave {σ τ} h1 h2 h3 := ⟨⟨h2.1, fun g v hg => (h1.2.1 g v hg).mono h3, h2.2.2⟩, h3, fun _ h => h⟩
  store {σ full v} h hv := by
    refine ⟨⟨h.1, h.2.1, ?_⟩, fun _ _ h => h, hv⟩
    intro x w hx
    change StrMap.get (StrMap.insert _ _ _) x = _ at hx
    by_cases e : x = full
    · subst e
      rw [StrMap.get_insert_self] at hx
      cases hx
      exact hv
    · rw [StrMap.get_insert_ne _ _ e] at hx
      exact h.2.2 x w hx
  reuse h hc := h.2.2 _ _ hc

/-- Nothing is known at the start. -/
theorem regOk_start {rt : Rt} (h : rt.Fine) : RegOk rt.curId rt (fun _ => none) where
  fine := h
  start := Nat.le_refl _
  cid _ _ h := by cases h
  kw _ _ _ := .inl rfl
  old _ _ h := by cases h
  older _ _ h := by cases h

/-- The invariant at the start. -/
theorem regInv_start {rt : Rt} (h : rt.Fine) : (regInv rt.curId).I (⟨[], [], rt⟩, fun _ => none) :=
  ⟨regOk_start h, (by intro g v hg; cases hg), (by intro g v hg; cases hg)⟩

section
variable [Unicode]

theorem regIncludes (N : Nat) (fs : FS) (file : Option Str) (stack : List Str) :
    (regInv N).Includes fs file stack (theLoader fs) :=
  EvalInv.includes_of_load (regFiles N) (EvalInv.loadN_good (regFiles N) fs _)

/-- A document from a fine state: its containers are registered. -/
theorem reg_meaning {fs : FS} {file : Option Str} {stack : List Str} {d : List Field} {rt : Rt} {o : Obj} {st : ESt}
    (hf : rt.Fine) (h : meaning fs file stack d rt = .ok (o, st)) :
    ∃ r, RegOk rt.curId st.rt r ∧ Registered r (.obj o) := by
  obtain ⟨r, h1, -, h3⟩ := (regInv rt.curId).evalDoc_good (regIncludes _ fs file stack) d (⟨[], [], rt⟩, fun _ => none)
    (regInv_start hf) (fun _ _ => trivial) o st h
  exact ⟨r, h1.1, h3⟩

/-- At a place: everything defined so far is registered. -/
def PlaceReg (N : Nat) (st : ESt) (b : List Pair × Option Obj) : Prop :=
  ∃ r, (regInv N).I (st, r) ∧ (∀ p ∈ b.1, Registered r p.value) ∧ ∀ q, b.2 = some q → Registered r (.obj q)

theorem placeReg_keeps (N : Nat) (fs : FS) : KeepsProp fs none [] (theLoader fs) (PlaceReg N) := by
  refine ⟨?_, ?_⟩
  · rintro fds k ps par s b s' h ⟨r, h1, h2, h3⟩
    obtain ⟨r', h4, -, h5, h6⟩ := (regInv N).evalFields_good (regIncludes N fs none []) fds k ps par (s, r) h1 h2 h3
      (fun _ _ => trivial) b s' h
    exact ⟨r', h4, h5, h6⟩
  · rintro s b ⟨r, h1, -, -⟩
    exact ⟨r, h1, by simp, by simp⟩

end

/-! ## Ids of values without references -/

/-- Pairwise different, and in `[a, b)`. -/
def Between (a b : Nat) (l : List Nat) : Prop := l.Nodup ∧ ∀ i ∈ l, a ≤ i ∧ i < b

theorem Between.nil {a b : Nat} : Between a b [] := ⟨List.nodup_nil, by simp⟩

theorem Between.append {a b c : Nat} {l m : List Nat} (h1 : Between a b l) (h2 : Between b c m) (hab : a ≤ b) (hbc : b ≤ c) :
    Between a c (l ++ m) := by
  refine ⟨List.nodup_append.2 ⟨h1.1, h2.1, ?_⟩, ?_⟩
  · intro x hx y hy e
    have := (h1.2 x hx).2
    have := (h2.2 y hy).1
    omega
  · intro i hi
    rcases List.mem_append.1 hi with hi | hi
    · have := h1.2 i hi; omega
    · have := h2.2 i hi; omega

theorem Between.cons {a b c : Nat} {l : List Nat} (h : Between a b l) (hab : a ≤ b) (hbc : b < c) : Between a c (b :: l) := by
  refine ⟨List.nodup_cons.2 ⟨fun hm => by have := h.2 _ hm; omega, h.1⟩, ?_⟩
  intro i hi
  rcases List.mem_cons.1 hi with rfl | hi
  · omega
  · have := h.2 i hi; omega

theorem Between.widen {a b c : Nat} {l : List Nat} (h : Between a b l) (hbc : b ≤ c) : Between a c l :=
  ⟨h.1, fun i hi => by have := h.2 i hi; omega⟩

theorem Between.sublist {a b : Nat} {l m : List Nat} (h : Between a b l) (hs : List.Sublist m l) : Between a b m :=
  ⟨h.1.sublist hs, fun i hi => h.2 i (hs.subset hi)⟩

theorem Between.perm {a b : Nat} {l m : List Nat} (h : Between a b l) (hp : List.Perm l m) : Between a b m :=
  ⟨hp.nodup_iff.1 h.1, fun i hi => h.2 i (hp.mem_iff.2 hi)⟩

/-- The ids inside several values. -/
def idsL (vs : List Value) : List Nat := (Value.containersL vs).map Value.cid

theorem idsL_cons (v : Value) (vs : List Value) : idsL (v :: vs) = v.ids ++ idsL vs := by
  simp [idsL, Value.containersL, Value.ids]

theorem idsL_append (xs ys : List Value) : idsL (xs ++ ys) = idsL xs ++ idsL ys := by
  induction xs with
  | nil => rfl
  | cons v vs ih => simp [idsL_cons, ih]

theorem ids_arr (i : Nat) (t : Ty) (vs : List Value) : (Value.arr i t vs).ids = i :: idsL vs := by
  simp [Value.ids, Value.containers, idsL, Value.cid]

theorem ids_tup (i : Nat) (t : List Ty) (vs : List Value) : (Value.tup i t vs).ids = i :: idsL vs := by
  simp [Value.ids, Value.containers, idsL, Value.cid]

/-- The ids of fields and parent. -/
def idsB (b : List Pair × Option Obj) : List Nat := (Pair.containersL b.1 ++ Obj.containersP b.2).map Value.cid

theorem ids_obj (i : Nat) (ps : List Pair) (par : Option Obj) : (Value.obj (.mk i ps par)).ids = i :: idsB (ps, par) := by
  simp [Value.ids, Value.containers, Obj.containers, idsB, Value.cid, Obj.id]

theorem pairContainersL_append (ps qs : List Pair) :
    Pair.containersL (ps ++ qs) = Pair.containersL ps ++ Pair.containersL qs := by
  induction ps with
  | nil => rfl
  | cons p ps ih => cases p; simp [Pair.containersL, ih]

/-- The postcondition. -/
def IdsPost (a : Nat) (st : ESt) (l : List Nat) (st' : ESt) : Prop :=
  st.rt.curId ≤ st'.rt.curId ∧ Between a st'.rt.curId l

theorem between_bin {file : Option Str} {op : BinOp} {v w : Value} {l : List Nat} {a : Nat} {st : ESt}
    (ha : a ≤ st.rt.curId) (h : Between a st.rt.curId (v.ids ++ w.ids ++ l)) :
    epost (G := Unit) (applyBin file op v w) (st, ()) (fun u σ => IdsPost a st (u.ids ++ l) σ.1) := by
  unfold applyBin
  cases hb : binSem op v w with
  | val u =>
    refine epost_pure ⟨Nat.le_refl _, ?_⟩
    have : u.ids = [] := by
      cases op <;> cases v <;> cases w <;> simp only [binSem, divSem] at hb <;>
        (try split at hb) <;> (try cases hb) <;> rfl
    rw [this]
    exact h.sublist (List.sublist_append_right _ _)
  | newArr t vs =>
    intro u st' hu
    cases hu
    refine ⟨(), Nat.le_of_lt st.rt.next_lt, ?_⟩
    rw [ids_arr]
    refine (h.sublist ?_).cons ha st.rt.next_lt
    refine List.Sublist.append_right ?_ _
    cases op <;> cases v <;> cases w <;> simp only [binSem, divSem] at hb <;>
      (try split at hb) <;> (try cases hb)
    rw [idsL_append, ids_arr, ids_arr]
    exact (List.sublist_cons_self _ _).append (List.sublist_cons_self _ _)
  | bad _ _ => exact epost_fail
  | divisionByZero => exact epost_fail

theorem between_sumLeft {file : Option Str} {a : Nat} : ∀ (r : List (BinOp × Value)) (v : Value) (st : ESt),
    a ≤ st.rt.curId → Between a st.rt.curId (v.ids ++ idsL (r.map Prod.snd)) →
    epost (G := Unit) (sumLeft file v r) (st, ()) (fun u σ => IdsPost a st u.ids σ.1)
  | [], v, st, ha, h => by
    refine epost_pure ⟨Nat.le_refl _, ?_⟩
    simpa [idsL, Value.containersL] using h
  | (op, w) :: r, v, st, ha, h => by
    rw [List.map_cons, idsL_cons, ← List.append_assoc] at h
    refine epost_bind (epost_mono (between_bin ha h) ?_)
    rintro u ⟨st1, _⟩ ⟨h1, h2⟩
    refine epost_mono (between_sumLeft r u st1 (Nat.le_trans ha h1) h2) ?_
    rintro x ⟨st2, _⟩ ⟨h3, h4⟩
    exact ⟨Nat.le_trans h1 h3, h4⟩

section
variable {fs : FS} {file : Option Str} {stack : List Str} {load : Loader}

theorem between_depth {d : Nat} {st : ESt} {β : Type} {Q : β → GSt Unit → Prop} {m : EM β}
    (h : epost m (st, ()) Q) : epost (depthCheck file d >>= fun _ => m) (st, ()) Q :=
  EvalInv.depthCheck_good h

theorem ids_applyUn {op : UnOp} {v : Value} {st : ESt} :
    epost (G := Unit) (applyUn file op v) (st, ()) (fun u σ => u.ids = [] ∧ σ.1 = st) := by
  cases op <;> cases v <;> simp only [applyUn] <;>
    first
      | exact epost_fail
      | exact epost_pure ⟨rfl, rfl⟩

mutual
theorem between_term : ∀ (t : Term) (pairs : List Pair) (d : Nat) (st : ESt), t.noRefs →
    epost (G := Unit) (evalTerm fs file stack load t pairs d) (st, ()) (fun v σ => IdsPost st.rt.curId st v.ids σ.1)
  | .str s, pairs, d, st, hn => by simp only [evalTerm]; exact epost_pure ⟨Nat.le_refl _, .nil⟩
  | .int s, pairs, d, st, hn => by simp only [evalTerm]; exact epost_pure ⟨Nat.le_refl _, .nil⟩
  | .frac s, pairs, d, st, hn => by simp only [evalTerm]; exact epost_pure ⟨Nat.le_refl _, .nil⟩
  | .name x, pairs, d, st, hn => by
    simp only [evalTerm]
    rcases hn with rfl | rfl | rfl
    · exact epost_pure ⟨Nat.le_refl _, .nil⟩
    · exact epost_pure ⟨Nat.le_refl _, .nil⟩
    · exact epost_pure ⟨Nat.le_refl _, .nil⟩
  | .dot _ _, pairs, d, st, hn => hn.elim
  | .neg t, pairs, d, st, hn => by
    simp only [evalTerm]
    refine epost_bind (epost_mono (between_term t pairs (d + 1) st hn) ?_)
    rintro v ⟨st1, _⟩ ⟨h1, -⟩
    refine epost_mono ids_applyUn ?_
    rintro u ⟨_, _⟩ ⟨h2, rfl⟩
    exact ⟨h1, h2 ▸ .nil⟩
  | .pos t, pairs, d, st, hn => by
    simp only [evalTerm]
    refine epost_bind (epost_mono (between_term t pairs (d + 1) st hn) ?_)
    rintro v ⟨st1, _⟩ ⟨h1, -⟩
    refine epost_mono ids_applyUn ?_
    rintro u ⟨_, _⟩ ⟨h2, rfl⟩
    exact ⟨h1, h2 ▸ .nil⟩
  | .arr es, pairs, d, st, hn => by
    simp only [evalTerm]
    refine between_depth (epost_bind (epost_mono (between_elems es pairs (d + 1) .any st hn) ?_))
    rintro ⟨vs, t⟩ ⟨st1, _⟩ ⟨h1, h2⟩ v st' hv
    cases hv
    refine ⟨(), Nat.le_trans h1 (Nat.le_of_lt st1.rt.next_lt), ?_⟩
    rw [ids_arr]
    exact h2.cons h1 st1.rt.next_lt
  | .tup es, pairs, d, st, hn => by
    simp only [evalTerm]
    refine between_depth (epost_bind (epost_mono (between_items es pairs (d + 1) st hn) ?_))
    rintro vs ⟨st1, _⟩ ⟨h1, h2⟩ v st' hv
    cases hv
    refine ⟨(), Nat.le_trans h1 (Nat.le_of_lt st1.rt.next_lt), ?_⟩
    rw [ids_tup]
    exact h2.cons h1 st1.rt.next_lt
  | .obj fds, pairs, d, st, hn => by
    simp only [evalTerm]
    refine between_depth (epost_bind (epost_mono (between_fields fds (d + 1) [] none st st.rt.curId hn (Nat.le_refl _)
      .nil) ?_))
    rintro ⟨ps, par⟩ ⟨st1, _⟩ ⟨h1, h2⟩ v st' hv
    cases hv
    refine ⟨(), Nat.le_trans h1 (Nat.le_of_lt st1.rt.next_lt), ?_⟩
    rw [ids_obj]
    exact h2.cons h1 st1.rt.next_lt
  | .incl _, pairs, d, st, hn => hn.elim
  | .inclAs _ _, pairs, d, st, hn => hn.elim
termination_by structural t => t
theorem between_expr : ∀ (e : Expr) (pairs : List Pair) (d : Nat) (st : ESt), e.noRefs →
    epost (G := Unit) (evalExpr fs file stack load e pairs d) (st, ()) (fun v σ => IdsPost st.rt.curId st v.ids σ.1)
  | .mk t r, pairs, d, st, hn => by
    simp only [evalExpr]
    refine epost_bind (epost_mono (between_term t pairs d st hn.1) ?_)
    rintro v ⟨st1, _⟩ ⟨h1, h2⟩
    refine epost_bind (epost_mono (between_chain r v pairs d st1 st.rt.curId hn.2 h1 h2) ?_)
    rintro ⟨p, sums⟩ ⟨st2, _⟩ ⟨h3, h4⟩
    refine epost_mono (between_sumLeft sums p st2 (Nat.le_trans h1 h3) h4) ?_
    rintro u ⟨st3, _⟩ ⟨h5, h6⟩
    exact ⟨Nat.le_trans h1 (Nat.le_trans h3 h5), h6⟩
termination_by structural t => t
theorem between_chain : ∀ (r : List OpTerm) (v : Value) (pairs : List Pair) (d : Nat) (st : ESt) (a : Nat),
    OpTerm.noRefsL r → a ≤ st.rt.curId → Between a st.rt.curId v.ids →
    epost (G := Unit) (evalChain fs file stack load r v pairs d) (st, ())
      (fun x σ => IdsPost a st (x.1.ids ++ idsL (x.2.map Prod.snd)) σ.1)
  | [], v, pairs, d, st, a, hn, ha, hv => by
    simp only [evalChain]
    refine epost_pure ⟨Nat.le_refl _, ?_⟩
    simpa [idsL, Value.containersL] using hv
  | .mk op t :: r, v, pairs, d, st, a, hn, ha, hv => by
    simp only [evalChain]
    refine epost_bind (epost_mono (between_term t pairs d st hn.1) ?_)
    rintro w ⟨st1, _⟩ ⟨h1, h2⟩
    have h3 : Between a st1.rt.curId (v.ids ++ w.ids) := hv.append h2 ha h1
    refine epost_ite (fun _ => ?_) (fun _ => ?_)
    · refine epost_bind (epost_mono (between_bin (l := []) (Nat.le_trans ha h1) (by simpa using h3)) ?_)
      rintro u ⟨st2, _⟩ ⟨h4, h5⟩
      rw [List.append_nil] at h5
      refine epost_mono (between_chain r u pairs d st2 a hn.2 (Nat.le_trans ha (Nat.le_trans h1 h4)) h5) ?_
      rintro x ⟨st3, _⟩ ⟨h6, h7⟩
      exact ⟨Nat.le_trans h1 (Nat.le_trans h4 h6), h7⟩
    · refine epost_bind (epost_mono (between_chain r w pairs d st1 st.rt.curId hn.2 h1 h2) ?_)
      rintro ⟨p, sums⟩ ⟨st2, _⟩ ⟨h4, h5⟩
      refine epost_pure ⟨Nat.le_trans h1 h4, ?_⟩
      rw [List.map_cons, idsL_cons]
      exact hv.append h5 ha (Nat.le_trans h1 h4)
termination_by structural t => t
theorem between_elems : ∀ (es : List Expr) (pairs : List Pair) (d : Nat) (t : Ty) (st : ESt), Expr.noRefsL es →
    epost (G := Unit) (evalElems fs file stack load es pairs d t) (st, ())
      (fun x σ => IdsPost st.rt.curId st (idsL x.1) σ.1)
  | [], pairs, d, t, st, hn => by simp only [evalElems]; exact epost_pure ⟨Nat.le_refl _, .nil⟩
  | e :: es, pairs, d, t, st, hn => by
    simp only [evalElems]
    refine epost_bind (epost_mono (between_expr e pairs d st hn.1) ?_)
    rintro v ⟨st1, _⟩ ⟨h1, h2⟩
    cases hm : Ty.mostSpecific t v.getType with
    | none => exact epost_fail
    | some x =>
      obtain ⟨u, fl⟩ := x
      refine epost_bind (epost_mono (between_elems es pairs d u st1 hn.2) ?_)
      rintro ⟨vs, u'⟩ ⟨st2, _⟩ ⟨h3, h4⟩
      refine epost_pure ⟨Nat.le_trans h1 h3, ?_⟩
      rw [idsL_cons]
      exact h2.append h4 h1 h3
termination_by structural t => t
theorem between_items : ∀ (es : List Expr) (pairs : List Pair) (d : Nat) (st : ESt), Expr.noRefsL es →
    epost (G := Unit) (evalItems fs file stack load es pairs d) (st, ())
      (fun x σ => IdsPost st.rt.curId st (idsL x) σ.1)
  | [], pairs, d, st, hn => by simp only [evalItems]; exact epost_pure ⟨Nat.le_refl _, .nil⟩
  | e :: es, pairs, d, st, hn => by
    simp only [evalItems]
    refine epost_bind (epost_mono (between_expr e pairs d st hn.1) ?_)
    rintro v ⟨st1, _⟩ ⟨h1, h2⟩
    refine epost_bind (epost_mono (between_items es pairs d st1 hn.2) ?_)
    rintro vs ⟨st2, _⟩ ⟨h3, h4⟩
    refine epost_pure ⟨Nat.le_trans h1 h3, ?_⟩
    rw [idsL_cons]
    exact h2.append h4 h1 h3
termination_by structural t => t
theorem between_fields : ∀ (fds : List Field) (d : Nat) (ps : List Pair) (par : Option Obj) (st : ESt) (a : Nat),
    Field.noRefsL fds → a ≤ st.rt.curId → Between a st.rt.curId (idsB (ps, par)) →
    epost (G := Unit) (evalFields fs file stack load fds d ps par) (st, ()) (fun b σ => IdsPost a st (idsB b) σ.1)
  | [], d, ps, par, st, a, hn, ha, hb => by simp only [evalFields]; exact epost_pure ⟨Nat.le_refl _, hb⟩
  | .mk tg e :: fds, d, ps, par, st, a, hn, ha, hb => by
    simp only [evalFields]
    have hchk : epost (G := Unit) (checkNew file ps par tg) (st, ()) (fun _ σ => σ.1 = st ∧ (tg = .parent → par = none)) := by
      cases tg with
      | field f =>
        simp only [checkNew]
        exact epost_ite (fun _ => epost_fail) (fun _ => epost_pure ⟨rfl, by intro h; cases h⟩)
      | parent =>
        simp only [checkNew]
        refine epost_ite (fun _ => epost_fail) (fun h => epost_pure ⟨rfl, fun _ => ?_⟩)
        cases par with
        | none => rfl
        | some q => exact absurd rfl h
      | global g =>
        intro x st' hx
        simp only [checkNew] at hx
        split at hx
        · cases hx
        · cases hx; exact ⟨(), rfl, by intro h; cases h⟩
    refine epost_bind (epost_mono hchk ?_)
    rintro _ ⟨_, _⟩ ⟨rfl, hpar⟩
    refine epost_bind (epost_mono (between_expr e ps d _ hn.1) ?_)
    rintro v ⟨st1, _⟩ ⟨h1, h2⟩
    have h3 := hb.append h2 ha h1
    cases tg with
    | field f =>
      refine epost_mono (between_fields fds d _ par st1 a hn.2 (Nat.le_trans ha h1) ?_) ?_
      · refine h3.perm ?_
        simp only [idsB, pairContainersL_append, Pair.containersL, List.append_nil, Value.ids, List.map_append,
          List.append_assoc]
        exact List.Perm.append_left _ List.perm_append_comm
      · rintro b ⟨st2, _⟩ ⟨h4, h5⟩
        exact ⟨Nat.le_trans h1 h4, h5⟩
    | global g =>
      refine epost_bind ?_
      intro _ st' hs
      cases hs
      refine ⟨(), epost_mono (between_fields fds d ps par _ a hn.2 (Nat.le_trans ha h1) (hb.widen h1)) ?_⟩
      rintro b ⟨st2, _⟩ ⟨h4, h5⟩
      exact ⟨Nat.le_trans h1 h4, h5⟩
    | parent =>
      cases v with
      | obj o =>
        refine epost_mono (between_fields fds d ps (some o) st1 a hn.2 (Nat.le_trans ha h1) ?_) ?_
        · rw [hpar rfl] at h3
          simpa [idsB, Obj.containersP, Value.ids, Value.containers] using h3
        · rintro b ⟨st2, _⟩ ⟨h4, h5⟩
          exact ⟨Nat.le_trans h1 h4, h5⟩
      | _ => exact epost_fail
termination_by structural t => t
end

end

end Over
