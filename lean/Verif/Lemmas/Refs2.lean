import Verif.Lemmas.Refs

/-! # Reference counting: what stored values mean -/

namespace Over

theorem Means.inv_arr {m : Mem} {a : Nat} {v : Value} (h : Means m (.arr a) v) :
    ∃ k id t ss vs, m.at a = some ⟨a, k, .arr id t ss⟩ ∧ MeansL m ss vs ∧ v = .arr id t vs := by
  cases h with
  | arr h1 h2 => exact ⟨_, _, _, _, _, h1, h2, rfl⟩

theorem Means.inv_tup {m : Mem} {a : Nat} {v : Value} (h : Means m (.tup a) v) :
    ∃ k id t ss vs, m.at a = some ⟨a, k, .tup id t ss⟩ ∧ MeansL m ss vs ∧ v = .tup id t vs := by
  cases h with
  | tup h1 h2 => exact ⟨_, _, _, _, _, h1, h2, rfl⟩

theorem Means.inv_obj {m : Mem} {a : Nat} {v : Value} (h : Means m (.obj a) v) : ∃ o, MeansO m a o ∧ v = .obj o := by
  cases h with
  | obj h => exact ⟨_, h, rfl⟩

mutual
theorem means_det {m : Mem} : ∀ {s : Slot} {v w : Value}, Means m s v → Means m s w → v = w
  | _, _, _, .null, h => by cases h; rfl
  | _, _, _, .bool _, h => by cases h; rfl
  | _, _, _, .int _, h => by cases h; rfl
  | _, _, _, .frac _, h => by cases h; rfl
  | _, _, _, .str _, h => by cases h; rfl
  | _, _, _, .arr h1 h2, h => by
    obtain ⟨_, _, _, _, _, e, h3, rfl⟩ := h.inv_arr
    rw [h1] at e; cases e
    rw [meansL_det h2 h3]
  | _, _, _, .tup h1 h2, h => by
    obtain ⟨_, _, _, _, _, e, h3, rfl⟩ := h.inv_tup
    rw [h1] at e; cases e
    rw [meansL_det h2 h3]
  | _, _, _, .obj h1, h => by
    obtain ⟨_, h2, rfl⟩ := h.inv_obj
    rw [meansO_det h1 h2]
theorem meansL_det {m : Mem} : ∀ {ss : List Slot} {v w : List Value}, MeansL m ss v → MeansL m ss w → v = w
  | _, _, _, .nil, h => by cases h; rfl
  | _, _, _, .cons h1 h2, h => by
    cases h with
    | cons h3 h4 => rw [means_det h1 h3, meansL_det h2 h4]
theorem meansF_det {m : Mem} : ∀ {ss : List (Str × Slot)} {v w : List Pair}, MeansF m ss v → MeansF m ss w → v = w
  | _, _, _, .nil, h => by cases h; rfl
  | _, _, _, .cons h1 h2, h => by
    cases h with
    | cons h3 h4 => rw [means_det h1 h3, meansF_det h2 h4]
theorem meansP_det {m : Mem} : ∀ {a : Option Nat} {v w : Option Obj}, MeansP m a v → MeansP m a w → v = w
  | _, _, _, .none, h => by cases h; rfl
  | _, _, _, .some h1, h => by
    cases h with
    | some h2 => rw [meansO_det h1 h2]
theorem meansO_det {m : Mem} : ∀ {a : Nat} {v w : Obj}, MeansO m a v → MeansO m a w → v = w
  | _, _, _, .mk h1 h2 h3, h => by
    cases h with
    | mk h4 h5 h6 =>
      rw [h1] at h4; cases h4
      rw [meansF_det h2 h5, meansP_det h3 h6]
end

/-! ## Existence -/

theorem meansL_exists {m : Mem} : ∀ (ss : List Slot), (∀ s ∈ ss, ∃ v, Means m s v) → ∃ vs, MeansL m ss vs
  | [], _ => ⟨[], .nil⟩
  | s :: ss, h => by
    obtain ⟨v, hv⟩ := h s (by simp)
    obtain ⟨vs, hvs⟩ := meansL_exists ss fun x hx => h x (by simp [hx])
    exact ⟨v :: vs, .cons hv hvs⟩

theorem meansF_exists {m : Mem} : ∀ (ss : List (Str × Slot)), (∀ s ∈ ss.map Prod.snd, ∃ v, Means m s v) → ∃ vs, MeansF m ss vs
  | [], _ => ⟨[], .nil⟩
  | (f, s) :: ss, h => by
    obtain ⟨v, hv⟩ := h s (by simp)
    obtain ⟨vs, hvs⟩ := meansF_exists ss fun x hx => h x (by rw [List.map_cons]; exact List.mem_cons_of_mem _ hx)
    exact ⟨.mk f v :: vs, .cons hv hvs⟩

/-- A slot with a fitting container whose parts have a meaning has a meaning. -/
theorem means_of_parts {m : Mem} {s : Slot} {a : Nat} {c : Cell} (hc : m.cellAt a = some c) (hs : c.handle a = s)
    (h : ∀ x ∈ c.slots, ∃ v, Means m x v) : ∃ v, Means m s v := by
  obtain ⟨k, hk⟩ := cellAt_iff.1 hc
  subst hs
  cases c with
  | arr id t vs =>
    obtain ⟨ws, hw⟩ := meansL_exists vs h
    exact ⟨_, .arr hk hw⟩
  | tup id t vs =>
    obtain ⟨ws, hw⟩ := meansL_exists vs h
    exact ⟨_, .tup hk hw⟩
  | obj id ps par =>
    obtain ⟨qs, hq⟩ := meansF_exists ps fun s hs => h s (by simp only [Cell.slots]; exact List.mem_append_left _ hs)
    cases par with
    | none => exact ⟨_, .obj (.mk hk hq .none)⟩
    | some p =>
      obtain ⟨v, hv⟩ := h (.obj p) (by simp [Cell.slots])
      obtain ⟨o, ho, -⟩ := hv.inv_obj
      exact ⟨_, .obj (.mk hk hq (.some ho))⟩

theorem means_scalar {m : Mem} {s : Slot} (h : s.addr = none) : ∃ v, Means m s v := by
  cases s with
  | null => exact ⟨_, .null⟩
  | bool b => exact ⟨_, .bool b⟩
  | int b => exact ⟨_, .int b⟩
  | frac b => exact ⟨_, .frac b⟩
  | str b => exact ⟨_, .str b⟩
  | arr a => cases h
  | tup a => cases h
  | obj a => cases h

theorem Mem.Inv.means {m : Mem} (hm : m.Inv) : ∀ (n : Nat) (s : Slot), m.Fits s →
    (∀ a c, s.addr = some a → m.cellAt a = some c → c.id < n) → ∃ v, Means m s v := by
  intro n
  induction n with
  | zero =>
    intro s hs hn
    cases ha : s.addr with
    | none => exact means_scalar ha
    | some a =>
      obtain ⟨c, hc, -⟩ := hs a ha
      exact absurd (hn a c ha hc) (by omega)
  | succ n ih =>
    intro s hs hn
    cases ha : s.addr with
    | none => exact means_scalar ha
    | some a =>
      obtain ⟨c, hc, he⟩ := hs a ha
      have hid := hn a c ha hc
      obtain ⟨k, hk⟩ := cellAt_iff.1 hc
      have hb := (at_mem hk).1
      refine means_of_parts hc he fun x hx => ih x (hm.fitsC x (mem_contents.2 ⟨_, hb, hx⟩)) fun a' c' h1 h2 => ?_
      have := hm.acyclic _ hb x hx a' h1 c' h2
      exact Nat.lt_of_lt_of_le this (Nat.lt_succ_iff.1 hid)

theorem Mem.Inv.means_of_fits {m : Mem} (hm : m.Inv) {s : Slot} (hs : m.Fits s) : ∃ v, Means m s v := by
  refine hm.means m.nextId s hs fun a c _ hc => ?_
  obtain ⟨k, hk⟩ := cellAt_iff.1 hc
  exact hm.old _ (at_mem hk).1

/-! ## Stability -/

/-- What is still allocated has not changed. -/
def SameCells (m m' : Mem) : Prop := ∀ a c c', m.cellAt a = some c → m'.cellAt a = some c' → c' = c

theorem keep_at {m m' : Mem} (hs : SameCells m m') {a k : Nat} {c : Cell} {s : Slot} (h : m.at a = some ⟨a, k, c⟩)
    (hf : m'.Fits s) (ha : s.addr = some a) : ∃ k', m'.at a = some ⟨a, k', c⟩ := by
  obtain ⟨c', h1, -⟩ := hf a ha
  have := hs a c c' (cellAt_iff.2 ⟨k, h⟩) h1
  subst this
  exact cellAt_iff.1 h1

theorem fits_part {m : Mem} (hm : m.Inv) {a k : Nat} {c : Cell} (h : m.at a = some ⟨a, k, c⟩) {s : Slot} (hs : s ∈ c.slots) :
    m.Fits s := hm.fitsC s (mem_contents.2 ⟨_, (at_mem h).1, hs⟩)

mutual
theorem means_keep {m m' : Mem} (hs : SameCells m m') (hm : m'.Inv) :
    ∀ {s : Slot} {v : Value}, Means m s v → m'.Fits s → Means m' s v
  | _, _, .null, _ => .null
  | _, _, .bool b, _ => .bool b
  | _, _, .int b, _ => .int b
  | _, _, .frac b, _ => .frac b
  | _, _, .str b, _ => .str b
  | _, _, .arr h1 h2, hf => by
    obtain ⟨k', h3⟩ := keep_at hs h1 hf rfl
    exact .arr h3 (meansL_keep hs hm h2 fun s hs => fits_part hm h3 hs)
  | _, _, .tup h1 h2, hf => by
    obtain ⟨k', h3⟩ := keep_at hs h1 hf rfl
    exact .tup h3 (meansL_keep hs hm h2 fun s hs => fits_part hm h3 hs)
  | _, _, .obj h, hf => .obj (meansO_keep hs hm h hf)
theorem meansL_keep {m m' : Mem} (hs : SameCells m m') (hm : m'.Inv) :
    ∀ {ss : List Slot} {vs : List Value}, MeansL m ss vs → (∀ s ∈ ss, m'.Fits s) → MeansL m' ss vs
  | _, _, .nil, _ => .nil
  | _, _, .cons h1 h2, hf => .cons (means_keep hs hm h1 (hf _ (by simp)))
      (meansL_keep hs hm h2 fun s h => hf s (List.mem_cons_of_mem _ h))
theorem meansF_keep {m m' : Mem} (hs : SameCells m m') (hm : m'.Inv) :
    ∀ {ss : List (Str × Slot)} {vs : List Pair}, MeansF m ss vs → (∀ s ∈ ss.map Prod.snd, m'.Fits s) → MeansF m' ss vs
  | _, _, .nil, _ => .nil
  | _, _, .cons h1 h2, hf => .cons (means_keep hs hm h1 (hf _ (by simp)))
      (meansF_keep hs hm h2 fun s h => hf s (by rw [List.map_cons]; exact List.mem_cons_of_mem _ h))
theorem meansP_keep {m m' : Mem} (hs : SameCells m m') (hm : m'.Inv) :
    ∀ {a : Option Nat} {o : Option Obj}, MeansP m a o → (∀ x ∈ (a.map Slot.obj).toList, m'.Fits x) → MeansP m' a o
  | _, _, .none, _ => .none
  | _, _, .some h, hf => .some (meansO_keep hs hm h (hf _ (by simp)))
theorem meansO_keep {m m' : Mem} (hs : SameCells m m') (hm : m'.Inv) :
    ∀ {a : Nat} {o : Obj}, MeansO m a o → m'.Fits (.obj a) → MeansO m' a o
  | _, _, .mk h1 h2 h3, hf => by
    obtain ⟨k', h4⟩ := keep_at hs h1 hf rfl
    exact .mk h4 (meansF_keep hs hm h2 fun s hs => fits_part hm h4 (List.mem_append_left _ hs))
      (meansP_keep hs hm h3 fun s hs => fits_part hm h4 (List.mem_append_right _ hs))
end

theorem sameCells_of_eq {m m' : Mem} (h : ∀ a, m'.cellAt a = m.cellAt a) : SameCells m m' := by
  intro a c c' h1 h2
  rw [h, h1] at h2
  exact (Option.some.inj h2).symm

theorem sameCells_alloc {m : Mem} {t a : Nat} {c : Cell} (ha : m.at a = none) : SameCells m (m.alloc t a c) := by
  intro a' c1 c2 h1 h2
  have hne : a' ≠ a := by
    rintro rfl
    unfold Mem.cellAt at h1; rw [ha] at h1; cases h1
  have : (m.alloc t a c).cellAt a' = m.cellAt a' := by
    unfold Mem.cellAt Mem.at Mem.alloc
    rw [List.find?_cons_of_neg (by simpa using fun e => hne e.symm)]
  rw [this, h1] at h2
  exact (Option.some.inj h2).symm

theorem sameCells_without {m m' : Mem} {a : Nat} (h : m'.blocks = m.without a) : SameCells m m' := by
  intro a' c1 c2 h1 h2
  have : m'.at a' = none ∨ m'.at a' = m.at a' := by
    by_cases e : a' = a
    · left
      unfold Mem.at; rw [h]
      refine List.find?_eq_none.2 fun x hx => ?_
      have := (List.mem_filter.1 hx).2
      subst e
      simpa using this
    · right
      unfold Mem.at; rw [h]
      unfold Mem.without
      rw [List.find?_filter]
      congr 1
      funext x
      by_cases e' : x.addr = a'
      · simp [e', e]
      · simp [e']
  unfold Mem.cellAt at h1 h2
  rcases this with e | e
  · rw [e] at h2; cases h2
  · rw [e, h1] at h2; exact (Option.some.inj h2).symm

theorem sameCells_step {m m' : Mem} (h : MemStep m m') : SameCells m m' := by
  cases h with
  | scalar => exact sameCells_of_eq fun _ => rfl
  | clone t t' s s' _ _ =>
    exact sameCells_of_eq (cellAt_map (fun b => if s'.addr = some b.addr then { b with count := b.count + 1 } else b)
      (fun b => by split <;> rfl) (fun b => by split <;> rfl) rfl)
  | newArr t a ty vs ha _ => exact sameCells_alloc ha
  | newTup t a vs ha _ => exact sameCells_alloc ha
  | newObj t a ps par ha _ => exact sameCells_alloc ha
  | tick => exact sameCells_of_eq fun _ => rfl
  | send => exact sameCells_of_eq fun _ => rfl
  | drop => exact sameCells_of_eq fun _ => rfl
  | glue h =>
    cases h with
    | forget => exact sameCells_of_eq fun _ => rfl
    | lower t a s b _ _ _ _ =>
      exact sameCells_of_eq (cellAt_map (fun x => if x.addr = a then { x with count := x.count - 1 } else x)
        (fun b => by split <;> rfl) (fun b => by split <;> rfl) rfl)
    | free => exact sameCells_without rfl

/-! ## Types, lookups -/

theorem typeOf_means {m : Mem} {s : Slot} {v : Value} (h : Means m s v) : m.typeOf s = v.getType := by
  cases h with
  | null => rfl
  | bool => rfl
  | int => rfl
  | frac => rfl
  | str => rfl
  | arr h1 _ => simp [Mem.typeOf, h1, Value.getType]
  | tup h1 _ => simp [Mem.typeOf, h1, Value.getType]
  | obj _ => rfl

theorem typeOf_meansL {m : Mem} : ∀ {ss : List Slot} {vs : List Value}, MeansL m ss vs →
    ss.map m.typeOf = vs.map Value.getType
  | _, _, .nil => rfl
  | _, _, .cons h1 h2 => by rw [List.map_cons, List.map_cons, typeOf_means h1, typeOf_meansL h2]

theorem meansL_get {m : Mem} : ∀ {ss : List Slot} {vs : List Value} (i : Nat), MeansL m ss vs →
    (∃ s v, ss[i]? = some s ∧ vs[i]? = some v ∧ Means m s v) ∨ (ss[i]? = none ∧ vs[i]? = none)
  | _, _, _, .nil => .inr (by simp)
  | _, _, 0, .cons h1 _ => .inl ⟨_, _, rfl, rfl, h1⟩
  | _, _, i + 1, .cons _ h2 => by simpa using meansL_get i h2

theorem meansF_find {m : Mem} (f : Str) : ∀ {ss : List (Str × Slot)} {ps : List Pair}, MeansF m ss ps →
    (∃ p v, ss.find? (fun p => p.1 == f) = some p ∧ findPair ps f = some (.mk p.1 v) ∧ Means m p.2 v) ∨
      (ss.find? (fun p => p.1 == f) = none ∧ findPair ps f = none)
  | _, _, .nil => .inr ⟨rfl, rfl⟩
  | _, _, .cons (f := g) (s := s) (v := v) (ss := ss) (ps := ps) h1 h2 => by
    by_cases e : g = f
    · exact .inl ⟨(g, s), v, by simp [e], by simp [findPair, Pair.field, e], h1⟩
    · have e1 : ((g, s) :: ss).find? (fun p => p.1 == f) = ss.find? (fun p => p.1 == f) :=
        List.find?_cons_of_neg (by simpa using e)
      have e2 : findPair (.mk g v :: ps) f = findPair ps f := List.find?_cons_of_neg (by simpa [Pair.field] using e)
      rw [e1, e2]
      exact meansF_find f h2

mutual
/-- `Obj::get` on the memory. -/
theorem getField_means {m : Mem} (f : Str) : ∀ {a : Nat} {o : Obj}, MeansO m a o →
    (∃ s a' v o', m.GetField f a (some (s, a')) ∧ Means m s v ∧ MeansO m a' o' ∧ o.get f = some v ∧
      o.getWithSource f = some (v, o')) ∨ (m.GetField f a none ∧ o.get f = none ∧ o.getWithSource f = none)
  | a, _, .mk (k := k) (id := id) (ss := ss) (par := par) (ps := ps) (p := p) h1 h2 h3 => by
    rcases meansF_find f h2 with ⟨q, v, e1, e2, e3⟩ | ⟨e1, e2⟩
    · exact .inl ⟨q.2, a, v, _, .here h1 e1, e3, .mk h1 h2 h3, by simp [Obj.get, e2, Pair.value],
        by simp [Obj.getWithSource, e2, Pair.value]⟩
    · rcases getParent_means f h3 with ⟨hp, h4, h5⟩ | ⟨b, hp, h⟩
      · refine .inr ⟨.nowhere (by rw [h1, hp]) e1, ?_, ?_⟩
        · simp [Obj.get, e2, h4]
        · simp [Obj.getWithSource, e2, h5]
      · subst hp
        rcases h with ⟨s, a', w, o', h4, h5, h6, h7, h8⟩ | ⟨h4, h5, h6⟩
        · exact .inl ⟨s, a', w, o', .above h1 e1 h4, h5, h6, by simp [Obj.get, e2, h7], by simp [Obj.getWithSource, e2, h8]⟩
        · exact .inr ⟨.above h1 e1 h4, by simp [Obj.get, e2, h5], by simp [Obj.getWithSource, e2, h6]⟩
theorem getParent_means {m : Mem} (f : Str) : ∀ {a : Option Nat} {o : Option Obj}, MeansP m a o →
    (a = none ∧ Obj.getParentField o f = none ∧ Obj.getParentWithSource o f = none) ∨
      ∃ b, a = some b ∧ ((∃ s a' v o', m.GetField f b (some (s, a')) ∧ Means m s v ∧ MeansO m a' o' ∧
        Obj.getParentField o f = some v ∧ Obj.getParentWithSource o f = some (v, o')) ∨
        (m.GetField f b none ∧ Obj.getParentField o f = none ∧ Obj.getParentWithSource o f = none))
  | _, _, .none => .inl ⟨rfl, by simp [Obj.getParentField], by simp [Obj.getParentWithSource]⟩
  | _, _, .some h => .inr ⟨_, rfl, by simpa [Obj.getParentField, Obj.getParentWithSource] using getField_means f h⟩
end

theorem getField_det {m : Mem} {f : Str} {a : Nat} {r r' : Option (Slot × Nat)} (h : m.GetField f a r)
    (h' : m.GetField f a r') : r = r' := by
  induction h with
  | here h1 h2 =>
    cases h' with
    | here h3 h4 => rw [h1] at h3; cases h3; rw [h2] at h4; cases h4; rfl
    | nowhere h3 h4 => rw [h1] at h3; cases h3; rw [h2] at h4; cases h4
    | above h3 h4 _ => rw [h1] at h3; cases h3; rw [h2] at h4; cases h4
  | nowhere h1 h2 =>
    cases h' with
    | here h3 h4 => rw [h1] at h3; cases h3; rw [h2] at h4; cases h4
    | nowhere h3 h4 => rfl
    | above h3 h4 _ => rw [h1] at h3; cases h3
  | above h1 h2 _ ih =>
    cases h' with
    | here h3 h4 => rw [h1] at h3; cases h3; rw [h2] at h4; cases h4
    | nowhere h3 h4 => rw [h1] at h3; cases h3
    | above h3 h4 h5 => rw [h1] at h3; cases h3; exact ih h5

theorem getField_reach {m : Mem} {f : Str} {a : Nat} {r : Option (Slot × Nat)} (h : m.GetField f a r) :
    ∀ s a', r = some (s, a') → m.Reach (.obj a) s ∧ m.Reach (.obj a) (.obj a') := by
  have trans : ∀ {x y z : Slot}, m.Reach x y → m.Reach y z → m.Reach x z := by
    intro x y z h1 h2
    induction h2 with
    | refl => exact h1
    | step _ e1 e2 e3 ih => exact .step ih e1 e2 e3
  induction h with
  | here h1 h2 =>
    rintro s a' ⟨⟩
    exact ⟨.step .refl rfl h1 (List.mem_append_left _ (List.mem_map_of_mem (List.mem_of_find?_eq_some h2))), .refl⟩
  | nowhere => rintro s a' ⟨⟩
  | @above a id k q ps r h1 h2 _ ih =>
    intro s a' e
    obtain ⟨h3, h4⟩ := ih s a' e
    have : m.Reach (.obj a) (.obj q) := .step .refl rfl h1 (List.mem_append_right _ (by simp))
    exact ⟨trans this h3, trans this h4⟩

/-! ## Identity -/

theorem Means.at_id {m : Mem} {s : Slot} {v : Value} {a : Nat} (h : Means m s v) (ha : s.addr = some a) :
    ∃ c, m.cellAt a = some c ∧ c.id = v.cid ∧ v.hasId v.cid = true := by
  cases h with
  | arr h1 _ => cases ha; exact ⟨_, cellAt_iff.2 ⟨_, h1⟩, rfl, by simp [Value.hasId, Value.cid]⟩
  | tup h1 _ => cases ha; exact ⟨_, cellAt_iff.2 ⟨_, h1⟩, rfl, by simp [Value.hasId, Value.cid]⟩
  | obj h =>
    cases h with
    | mk h1 _ _ => cases ha; exact ⟨_, cellAt_iff.2 ⟨_, h1⟩, rfl, by simp [Value.hasId, Value.cid]⟩
  | _ => cases ha

theorem id_addr {m : Mem} (hm : m.Inv) {b b' : Block} (hb : b ∈ m.blocks) (hb' : b' ∈ m.blocks)
    (h : b.cell.id = b'.cell.id) : b = b' := List.inj_on_of_nodup_map hm.ids hb hb' h

theorem hasId_iff_isAt {m : Mem} (hm : m.Inv) {s : Slot} {v : Value} (h : Means m s v) {b : Block} (hb : b ∈ m.blocks) :
    v.hasId b.cell.id = s.isAt b.addr := by
  have key : ∀ a c, m.cellAt a = some c → (c.id = b.cell.id ↔ a = b.addr) := by
    intro a c hc
    obtain ⟨k, hk⟩ := cellAt_iff.1 hc
    constructor
    · intro e
      have := id_addr hm (at_mem hk).1 hb e
      exact congrArg Block.addr this
    · rintro rfl
      rw [hm.at_of hb] at hk
      have := Option.some.inj hk
      rw [this]
  rw [Bool.eq_iff_iff, isAt_iff]
  cases h with
  | null => simp [Value.hasId, Slot.addr]
  | bool => simp [Value.hasId, Slot.addr]
  | int => simp [Value.hasId, Slot.addr]
  | frac => simp [Value.hasId, Slot.addr]
  | str => simp [Value.hasId, Slot.addr]
  | arr h1 _ => simpa [Value.hasId, Slot.addr, Cell.id, Obj.id] using key _ _ (cellAt_iff.2 ⟨_, h1⟩)
  | tup h1 _ => simpa [Value.hasId, Slot.addr, Cell.id, Obj.id] using key _ _ (cellAt_iff.2 ⟨_, h1⟩)
  | obj h =>
    cases h with
    | mk h1 _ _ => simpa [Value.hasId, Slot.addr, Cell.id, Obj.id] using key _ _ (cellAt_iff.2 ⟨_, h1⟩)

end Over
