import Verif.Lemmas.Refs3

/-!
# C67: reference counts, C68: stored values are values

`MemExec Mem.init m`: `m` is reached by some interleaving of some threads that build, clone, read, send and drop values
(`Model/Refs.lean`).  `Mem.handles`, `Mem.places`, `Mem.falling`, `Means`, `Value.parts`, `Value.hasId` are in
`Spec/Refs.lean`, `Value.containersL`, `Value.cid` in `Spec/Identity.lean`.
-/

namespace Over

/-- C67: `num_references` of a container that some thread owns a handle of is exactly the number of such handles, plus
the number of places (elements, fields, parents) in allocated containers that refer to it, plus the handles that are in
the middle of being dropped; so it is at least one. -/
theorem c67_num_references (m : Mem) (h : MemExec Mem.init m) (t : Nat) (s : Slot) (hs : (t, s) ∈ m.held) (a : Nat)
    (ha : s.addr = some a) :
    m.numReferences s = some (m.handles a + m.places a + m.falling a) ∧ 1 ≤ m.handles a := by
  have hm := Mem.Inv.init.exec h
  obtain ⟨c, hc, -⟩ := hm.fitsH _ hs a ha
  obtain ⟨k, hk⟩ := cellAt_iff.1 hc
  have := hm.count _ (at_mem hk).1
  refine ⟨?_, Multiset.countP_pos.2 ⟨_, hs, isAt_iff.2 ha⟩⟩
  unfold Mem.numReferences
  rw [ha]
  dsimp only
  rw [hk]
  simp only [Option.map_some, Option.some.injEq]
  show k = _
  dsimp only at this
  omega

/-- C67: no dangling references: whatever can be reached from a value that is owned by a thread or being dropped is
still allocated, and is a container of the right kind. -/
theorem c67_no_dangling (m : Mem) (h : MemExec Mem.init m) (t : Nat) (s : Slot) (hs : (t, s) ∈ m.held ∨ (t, s) ∈ m.dropping)
    (s' : Slot) (hr : m.Reach s s') (a : Nat) (ha : s'.addr = some a) :
    ∃ b, m.at a = some b ∧ b.cell.handle a = s' := by
  have hm := Mem.Inv.init.exec h
  have hf : m.Fits s := hs.elim (hm.fitsH _) (hm.fitsD _)
  obtain ⟨c, hc, he⟩ := reach_fits hm hf hr a ha
  obtain ⟨k, hk⟩ := cellAt_iff.1 hc
  exact ⟨_, hk, he⟩

/-- C67: no leaks: when no drop is under way, what is allocated can be reached from a value owned by some thread. -/
theorem c67_no_leak (m : Mem) (h : MemExec Mem.init m) (hd : m.dropping = 0) (b : Block) (hb : b ∈ m.blocks) :
    ∃ t s, (t, s) ∈ m.held ∧ m.Reach s (b.cell.handle b.addr) := by
  have hm := Mem.Inv.init.exec h
  obtain ⟨t, s, h1, h2⟩ := hm.rooted m.nextId b hb (Nat.sub_le _ _)
  rcases h1 with h1 | h1
  · exact ⟨t, s, h1, h2⟩
  · rw [hd] at h1; exact absurd h1 (Multiset.notMem_zero _)

/-- C67: so when nothing is owned any more, nothing is allocated any more. -/
theorem c67_all_freed (m : Mem) (h : MemExec Mem.init m) (hd : m.dropping = 0) (hh : m.held = 0) : m.blocks = [] := by
  cases hb : m.blocks with
  | nil => rfl
  | cons b bs =>
    obtain ⟨t, s, h1, -⟩ := c67_no_leak m h hd b (by rw [hb]; simp)
    rw [hh] at h1; exact absurd h1 (Multiset.notMem_zero _)

/-- C67: drops end: there is no infinite execution of drop glue; while something is still being dropped, some step is
possible; and so the glue reaches a state in which nothing is being dropped, and the owned values are the same. -/
theorem c67_drops_end (m : Mem) (h : MemExec Mem.init m) :
    Acc (fun m2 m1 => DropStep m1 m2) m ∧ (m.dropping ≠ 0 → ∃ m', DropStep m m') ∧
      ∃ m', DropExec m m' ∧ m'.dropping = 0 ∧ m'.held = m.held := by
  have hm := Mem.Inv.init.exec h
  refine ⟨?_, drop_progress hm, drop_finishes _ m hm (Nat.le_refl _)⟩
  have key : ∀ n (m : Mem), m.Inv → m.load ≤ n → Acc (fun m2 m1 => DropStep m1 m2) m := by
    intro n
    induction n with
    | zero =>
      intro m hm hn
      refine .intro _ fun m' hs => ?_
      have := (load_step hm hs).1
      omega
    | succ n ih =>
      intro m hm hn
      refine .intro _ fun m' hs => ih m' (hm.dropStep hs) ?_
      have := (load_step hm hs).1
      omega
  exact key _ m hm (Nat.le_refl _)

/-- C67: `num_references` in terms of values only: let `vs` be the values owned by all threads, none being dropped, and
`cs` the different containers inside them.  Then the number of references to a container `c` among them is the number
of times it occurs directly in `vs`, plus the number of times it occurs directly in the containers `cs`. -/
theorem c67_of_values (m : Mem) (h : MemExec Mem.init m) (hd : m.dropping = 0) (ss : List Slot)
    (hh : m.held.map Prod.snd = (ss : Multiset Slot)) (vs : List Value) (hv : MeansL m ss vs)
    (cs : List Value) (hn : (cs.map Value.cid).Nodup) (hc : ∀ c, c ∈ cs ↔ c ∈ Value.containersL vs)
    (s : Slot) (c : Value) (hcc : c ∈ cs) (hs : Means m s c) :
    m.numReferences s = some (vs.countP (Value.hasId c.cid) + (cs.flatMap Value.parts).countP (Value.hasId c.cid)) := by
  have hm := Mem.Inv.init.exec h
  have ha : ∃ a, s.addr = some a := by
    cases ha : s.addr with
    | some a => exact ⟨a, rfl⟩
    | none =>
      obtain ⟨v, hvm, hcv⟩ := containersL_mem.1 ((hc c).1 hcc)
      obtain ⟨x, hxm, hx⟩ := meansL_mem hv |>.2 v hvm
      obtain ⟨t, ht⟩ : ∃ t, (t, x) ∈ m.held := by
        have : x ∈ m.held.map Prod.snd := by rw [hh]; exact Multiset.mem_coe.2 hxm
        obtain ⟨⟨t, y⟩, h1, rfl⟩ := Multiset.mem_map.1 this
        exact ⟨t, h1⟩
      obtain ⟨s', a', -, h2, h3⟩ := (hm.containers hx (hm.fitsH _ ht) c).1 hcv
      obtain ⟨_, _, _, h4⟩ := h3.at_id h2
      cases hs with
      | null => cases h4
      | bool => cases h4
      | int => cases h4
      | frac => cases h4
      | str => cases h4
      | arr => cases ha
      | tup => cases ha
      | obj => cases ha
  obtain ⟨a, ha⟩ := ha
  obtain ⟨ce, h1, h2, -⟩ := hs.at_id ha
  obtain ⟨k, hk⟩ := cellAt_iff.1 h1
  have := count_of_values hm hd ss hh vs hv cs hn hc _ (at_mem hk).1
  unfold Mem.numReferences
  rw [ha]
  dsimp only
  rw [hk]
  simp only [Option.map_some, Option.some.injEq]
  dsimp only at this
  rw [h2] at this
  exact this

/-- C68: every value owned by a thread is exactly one value in the sense of `Model/Value.lean`. -/
theorem c68_means_one_value (m : Mem) (h : MemExec Mem.init m) (t : Nat) (s : Slot) (hs : (t, s) ∈ m.held) :
    ∃ v, Means m s v ∧ ∀ w, Means m s w → w = v := by
  have hm := Mem.Inv.init.exec h
  obtain ⟨v, hv⟩ := hm.means_of_fits (hm.fitsH _ hs)
  exact ⟨v, hv, fun w hw => means_det hw hv⟩

/-- C68: values do not change: as long as some thread owns `s`, it stays the same value, whatever all threads do. -/
theorem c68_values_do_not_change (m m' : Mem) (h : MemExec Mem.init m) (s : Slot) (v : Value) (hv : Means m s v)
    (he : MemExecWhile (fun m => ∃ t, (t, s) ∈ m.held) m m') : Means m' s v := by
  have key : m'.Inv ∧ Means m' s v := by
    induction he with
    | nil => exact ⟨Mem.Inv.init.exec h, hv⟩
    | snoc _ hst hq ih =>
      obtain ⟨h1, h2⟩ := ih
      have h3 := h1.step hst
      obtain ⟨t, ht⟩ := hq
      exact ⟨h3, means_keep (sameCells_step hst) h3 h2 (h3.fitsH _ ht)⟩
  exact key.2

/-- C68: `ptr_eq` of two containers (which looks at addresses, and these are used again after deallocation) says whether
their ids are equal; and then they are the same value. -/
theorem c68_ptr_eq (m : Mem) (h : MemExec Mem.init m) (t t' a a' : Nat) (s s' : Slot) (hs : (t, s) ∈ m.held)
    (hs' : (t', s') ∈ m.held) (ha : s.addr = some a) (ha' : s'.addr = some a') (v v' : Value) (hv : Means m s v)
    (hv' : Means m s' v') : (s.ptrEq s' = true ↔ v.cid = v'.cid) ∧ (s.ptrEq s' = true → s = s' ∧ v = v') := by
  have hm := Mem.Inv.init.exec h
  obtain ⟨c, h1, h2, -⟩ := hv.at_id ha
  obtain ⟨c', h1', h2', -⟩ := hv'.at_id ha'
  obtain ⟨k, hk⟩ := cellAt_iff.1 h1
  obtain ⟨k', hk'⟩ := cellAt_iff.1 h1'
  have key : s.ptrEq s' = true ↔ a = a' := by
    unfold Slot.ptrEq
    rw [ha, ha']
    simp
  have hsame : a = a' → s = s' ∧ v = v' := by
    rintro rfl
    obtain ⟨d, h3, h4⟩ := hm.fitsH _ hs a ha
    obtain ⟨d', h3', h4'⟩ := hm.fitsH _ hs' a ha'
    rw [h3] at h3'
    cases h3'
    have e : s = s' := h4.symm.trans h4'
    subst e
    exact ⟨rfl, means_det hv hv'⟩
  refine ⟨key.trans ⟨fun e => by rw [(hsame e).2], fun e => ?_⟩, fun e => hsame (key.1 e)⟩
  have := id_addr hm (at_mem hk).1 (at_mem hk').1 (by dsimp only; rw [h2, h2', e])
  exact congrArg Block.addr this

/-- C68: for objects this is `Obj.ptrEq` of the model. -/
theorem c68_ptr_eq_obj (m : Mem) (h : MemExec Mem.init m) (t t' a a' : Nat) (hs : (t, .obj a) ∈ m.held)
    (hs' : (t', .obj a') ∈ m.held) (o o' : Obj) (ho : MeansO m a o) (ho' : MeansO m a' o') :
    Slot.ptrEq (.obj a) (.obj a') = o.ptrEq o' := by
  have := (c68_ptr_eq m h t t' a a' _ _ hs hs' rfl rfl _ _ (.obj ho) (.obj ho')).1
  rw [Bool.eq_iff_iff, this]
  simp [Value.cid, Obj.ptrEq]

/-- C68: for arrays it is `Arr.ptrEq`. -/
theorem c68_ptr_eq_arr (m : Mem) (h : MemExec Mem.init m) (t t' a a' : Nat) (hs : (t, .arr a) ∈ m.held)
    (hs' : (t', .arr a') ∈ m.held) (x x' : Arr) (hx : Means m (.arr a) x.toValue) (hx' : Means m (.arr a') x'.toValue) :
    Slot.ptrEq (.arr a) (.arr a') = x.ptrEq x' := by
  have := (c68_ptr_eq m h t t' a a' _ _ hs hs' rfl rfl _ _ hx hx').1
  rw [Bool.eq_iff_iff, this]
  simp [Value.cid, Arr.ptrEq, Arr.toValue]

/-- C68: for tuples it is `Tup.ptrEq`. -/
theorem c68_ptr_eq_tup (m : Mem) (h : MemExec Mem.init m) (t t' a a' : Nat) (hs : (t, .tup a) ∈ m.held)
    (hs' : (t', .tup a') ∈ m.held) (x x' : Tup) (hx : Means m (.tup a) x.toValue) (hx' : Means m (.tup a') x'.toValue) :
    Slot.ptrEq (.tup a) (.tup a') = x.ptrEq x' := by
  have := (c68_ptr_eq m h t t' a a' _ _ hs hs' rfl rfl _ _ hx hx').1
  rw [Bool.eq_iff_iff, this]
  simp [Value.cid, Tup.ptrEq, Tup.toValue]

/-- C68: a new array is the array that `Arr::from_values_unchecked` of the model makes from the values that went in. -/
theorem c68_new_arr (m : Mem) (h : MemExec Mem.init m) (t a : Nat) (ty : Ty) (ss : List Slot) (vs : List Value)
    (ha : m.at a = none) (hle : (ss.map (Prod.mk t) : Multiset (Nat × Slot)) ≤ m.held) (hv : MeansL m ss vs) :
    MemStep m (m.alloc t a (.arr m.nextId ty ss)) ∧
      Means (m.alloc t a (.arr m.nextId ty ss)) (.arr a) (Arr.fromValuesUnchecked m.nextId vs ty).toValue := by
  have hst := MemStep.newArr m t a ty ss ha hle
  have hm' := (Mem.Inv.init.exec h).step hst
  have hat : (m.alloc t a (.arr m.nextId ty ss)).at a = some ⟨a, 1, .arr m.nextId ty ss⟩ := by
    unfold Mem.at Mem.alloc; rw [List.find?_cons_of_pos (by simp)]
  exact ⟨hst, .arr hat (meansL_keep (sameCells_step hst) hm' hv fun s hs => fits_part hm' hat hs)⟩

/-- C68: a new tuple is the tuple that `Tup::from_values` of the model makes. -/
theorem c68_new_tup (m : Mem) (h : MemExec Mem.init m) (t a : Nat) (ss : List Slot) (vs : List Value)
    (ha : m.at a = none) (hle : (ss.map (Prod.mk t) : Multiset (Nat × Slot)) ≤ m.held) (hv : MeansL m ss vs) :
    MemStep m (m.alloc t a (.tup m.nextId (ss.map m.typeOf) ss)) ∧
      Means (m.alloc t a (.tup m.nextId (ss.map m.typeOf) ss)) (.tup a) (Tup.fromValues m.nextId vs).toValue := by
  have hst := MemStep.newTup m t a ss ha hle
  have hm' := (Mem.Inv.init.exec h).step hst
  have hat : (m.alloc t a (.tup m.nextId (ss.map m.typeOf) ss)).at a = some ⟨a, 1, .tup m.nextId (ss.map m.typeOf) ss⟩ := by
    unfold Mem.at Mem.alloc; rw [List.find?_cons_of_pos (by simp)]
  refine ⟨hst, ?_⟩
  have := Means.tup hat (meansL_keep (sameCells_step hst) hm' hv fun s hs => fits_part hm' hat hs)
  rw [typeOf_meansL hv] at this
  rw [typeOf_meansL hv]
  exact this

/-- C68: a new object is the object that `Obj::from_pairs_unchecked` of the model makes. -/
theorem c68_new_obj (m : Mem) (h : MemExec Mem.init m) (t a : Nat) (ss : List (Str × Slot)) (par : Option Nat)
    (ps : List Pair) (p : Option Obj) (ha : m.at a = none)
    (hle : ((Cell.obj m.nextId ss par).slots.map (Prod.mk t) : Multiset (Nat × Slot)) ≤ m.held)
    (hv : MeansF m ss ps) (hp : MeansP m par p) :
    MemStep m (m.alloc t a (.obj m.nextId ss par)) ∧
      Means (m.alloc t a (.obj m.nextId ss par)) (.obj a) (.obj (Obj.fromPairsUnchecked m.nextId ps p)) := by
  have hst := MemStep.newObj m t a ss par ha hle
  have hm' := (Mem.Inv.init.exec h).step hst
  have hat : (m.alloc t a (.obj m.nextId ss par)).at a = some ⟨a, 1, .obj m.nextId ss par⟩ := by
    unfold Mem.at Mem.alloc; rw [List.find?_cons_of_pos (by simp)]
  exact ⟨hst, .obj (.mk hat (meansF_keep (sameCells_step hst) hm' hv fun s hs => fits_part hm' hat (List.mem_append_left _ hs))
    (meansP_keep (sameCells_step hst) hm' hp fun s hs => fits_part hm' hat (List.mem_append_right _ hs)))⟩

/-- C68: `Arr::get` on the memory is `Arr::get` of the model, and its result can be cloned. -/
theorem c68_arr_get (m : Mem) (a : Nat) (A : Arr) (hA : Means m (.arr a) A.toValue) (i : Nat) :
    (∃ s v, m.getIndex (.arr a) i = some (.ok s) ∧ A.get i = some (.ok v) ∧ Means m s v ∧ m.Reach (.arr a) s) ∨
      ∃ e, m.getIndex (.arr a) i = some (.error e) ∧ A.get i = some (.error e) := by
  obtain ⟨k, id, ty, ss, vs, h1, h2, h3⟩ := hA.inv_arr
  obtain ⟨id', ty', vs'⟩ := A
  cases h3
  rcases meansL_get i h2 with ⟨s, v, e1, e2, e3⟩ | ⟨e1, e2⟩
  · refine .inl ⟨s, v, ?_, ?_, e3, .step .refl rfl h1 (List.mem_of_getElem? e1)⟩
    · simp [Mem.getIndex, h1, e1]
    · have e2' : vs'[i]? = some v := e2
      have : i < vs'.length := (List.getElem?_eq_some_iff.1 e2').1
      have hle : ¬ vs'.length ≤ i := by omega
      unfold Arr.get
      dsimp only
      rw [if_neg hle, e2']
  · refine .inr ⟨.arrOutOfBounds i, ?_, ?_⟩
    · simp [Mem.getIndex, h1, e1]
    · have e2' : vs'[i]? = none := e2
      simp [Arr.get, List.getElem?_eq_none_iff.1 e2']

/-- C68: `Tup::get` on the memory is `Tup::get` of the model, and its result can be cloned. -/
theorem c68_tup_get (m : Mem) (a : Nat) (A : Tup) (hA : Means m (.tup a) A.toValue) (i : Nat) :
    (∃ s v, m.getIndex (.tup a) i = some (.ok s) ∧ A.get i = some (.ok v) ∧ Means m s v ∧ m.Reach (.tup a) s) ∨
      ∃ e, m.getIndex (.tup a) i = some (.error e) ∧ A.get i = some (.error e) := by
  obtain ⟨k, id, ty, ss, vs, h1, h2, h3⟩ := hA.inv_tup
  obtain ⟨id', ty', vs'⟩ := A
  cases h3
  rcases meansL_get i h2 with ⟨s, v, e1, e2, e3⟩ | ⟨e1, e2⟩
  · refine .inl ⟨s, v, ?_, ?_, e3, .step .refl rfl h1 (List.mem_of_getElem? e1)⟩
    · simp [Mem.getIndex, h1, e1]
    · have e2' : vs'[i]? = some v := e2
      have : i < vs'.length := (List.getElem?_eq_some_iff.1 e2').1
      have hle : ¬ vs'.length ≤ i := by omega
      unfold Tup.get
      dsimp only
      rw [if_neg hle, e2']
  · refine .inr ⟨.tupOutOfBounds i, ?_, ?_⟩
    · simp [Mem.getIndex, h1, e1]
    · have e2' : vs'[i]? = none := e2
      simp [Tup.get, List.getElem?_eq_none_iff.1 e2']

/-- C68: `Obj::get` and `Obj::get_with_source` on the memory are those of the model, along the chain of parents, and their
results can be cloned. -/
theorem c68_obj_get (m : Mem) (a : Nat) (o : Obj) (ho : MeansO m a o) (f : Str) :
    (∃ s a' v o', m.GetField f a (some (s, a')) ∧ Means m s v ∧ MeansO m a' o' ∧ o.get f = some v ∧
      o.getWithSource f = some (v, o') ∧ m.Reach (.obj a) s ∧ m.Reach (.obj a) (.obj a') ∧
      ∀ r, m.GetField f a r → r = some (s, a')) ∨
    (m.GetField f a none ∧ o.get f = none ∧ o.getWithSource f = none ∧ ∀ r, m.GetField f a r → r = none) := by
  rcases getField_means f ho with ⟨s, a', v, o', h1, h2, h3, h4, h5⟩ | ⟨h1, h2, h3⟩
  · obtain ⟨h6, h7⟩ := getField_reach h1 s a' rfl
    exact .inl ⟨s, a', v, o', h1, h2, h3, h4, h5, h6, h7, fun r hr => getField_det hr h1⟩
  · exact .inr ⟨h1, h2, h3, fun r hr => getField_det hr h1⟩

/-! ## A concrete execution -/

/-- Thread 0 makes `1`, then an array `[1]` at address 7, -/
def refs2 : Mem := (⟨[], 0, {(0, .int 1)}, 0⟩ : Mem).alloc 0 7 (.arr 0 .int [.int 1])
/-- clones it twice, -/
def refs4 : Mem :=
  let m3 : Mem := { refs2 with blocks := refs2.bump (.arr 7), held := (0, .arr 7) ::ₘ refs2.held }
  { m3 with blocks := m3.bump (.arr 7), held := (0, .arr 7) ::ₘ m3.held }
/-- makes an object `{x: [1] y: [1]}` at address 9, -/
def refs5 : Mem := refs4.alloc 0 9 (.obj 1 [(c!"x", .arr 7), (c!"y", .arr 7)] none)
/-- and thread 5 gets `x` from it. -/
def refsEnd : Mem := { refs5 with blocks := refs5.bump (.arr 7), held := (5, .arr 7) ::ₘ refs5.held }

theorem refs_run : MemExec Mem.init refsEnd := by
  have h1 : MemExec Mem.init ⟨[], 0, {(0, .int 1)}, 0⟩ := .snoc (.nil _) (.scalar Mem.init 0 (.int 1) rfl)
  have h2 : MemExec Mem.init refs2 := .snoc h1 (.newArr _ 0 7 .int [.int 1] rfl (by decide))
  have h3 := MemExec.snoc h2 (.clone _ 0 0 (.arr 7) (.arr 7) (by decide) .refl)
  have h4 : MemExec Mem.init refs4 := MemExec.snoc h3 (.clone _ 0 0 (.arr 7) (.arr 7) (by decide) .refl)
  have h5 : MemExec Mem.init refs5 := .snoc h4 (.newObj _ 0 9 [(c!"x", .arr 7), (c!"y", .arr 7)] none rfl (by decide))
  exact .snoc h5 (.clone _ 5 0 (.obj 9) (.arr 7) (by decide) (.step .refl rfl rfl (by decide)))

/-- Non-vacuity of C67 and C68: four references to the array (two handles, two fields), as `num_references` says; the object
holds it twice under one id. -/
example : refsEnd.numReferences (.arr 7) = some 4 ∧ refsEnd.handles 7 = 2 ∧ refsEnd.places 7 = 2 ∧ refsEnd.dropping = 0 ∧
    (0, .arr 7) ∈ refsEnd.held ∧ (5, .arr 7) ∈ refsEnd.held ∧
    Means refsEnd (.obj 9) (.obj (.mk 1 [.mk c!"x" (.arr 0 .int [.int 1]), .mk c!"y" (.arr 0 .int [.int 1])] none)) := by
  have ha : Means refsEnd (.arr 7) (.arr 0 .int [.int 1]) := .arr (k := 4) (ss := [.int 1]) rfl (.cons (.int 1) .nil)
  refine ⟨by decide, by decide, by decide, rfl, by decide, by decide, .obj (.mk (k := 1) (ss := [(c!"x", .arr 7), (c!"y", .arr 7)])
    (par := none) rfl (.cons ha (.cons ha .nil)) .none)⟩

/-- The hypotheses of `c67_of_values` are met: handles of the object and twice of the array. -/
example : refsEnd.held.map Prod.snd = (([.arr 7, .obj 9, .arr 7] : List Slot) : Multiset Slot) := by decide

/-- Dropping the object in this state: its memory is freed, and the array has two references left. -/
example : ∃ m, MemExec Mem.init m ∧ m.dropping = 0 ∧ m.numReferences (.arr 7) = some 2 ∧ m.at 9 = none := by
  refine ⟨_, .snoc (.snoc (.snoc (.snoc refs_run (.drop _ 0 (.obj 9) (by decide)))
    (.glue (.free _ 0 9 (.obj 9) ⟨9, 1, .obj 1 [(c!"x", .arr 7), (c!"y", .arr 7)] none⟩ (by decide) rfl rfl rfl)))
    (.glue (.lower _ 0 7 (.arr 7) ⟨7, 4, .arr 0 .int [.int 1]⟩ (by decide) rfl rfl (by decide))))
    (.glue (.lower _ 0 7 (.arr 7) ⟨7, 3, .arr 0 .int [.int 1]⟩ (by decide) rfl rfl (by decide))), ?_, ?_, ?_⟩
  · decide
  · decide
  · rfl

end Over
