import Verif.Lemmas.Refs2
import Mathlib.Data.Multiset.Filter
import Verif.Lemmas.Identity

/-! # Reference counting: counting on values -/

namespace Over

theorem meansF_values {m : Mem} : ∀ {ss : List (Str × Slot)} {ps : List Pair}, MeansF m ss ps →
    MeansL m (ss.map Prod.snd) (ps.map Pair.value)
  | _, _, .nil => .nil
  | _, _, .cons h1 h2 => .cons h1 (meansF_values h2)

theorem meansL_append {m : Mem} : ∀ {ss ss' : List Slot} {vs vs' : List Value}, MeansL m ss vs → MeansL m ss' vs' →
    MeansL m (ss ++ ss') (vs ++ vs')
  | _, _, _, _, .nil, h => h
  | _, _, _, _, .cons h1 h2, h => .cons h1 (meansL_append h2 h)

theorem meansL_mem {m : Mem} : ∀ {ss : List Slot} {vs : List Value}, MeansL m ss vs →
    (∀ s ∈ ss, ∃ v ∈ vs, Means m s v) ∧ ∀ v ∈ vs, ∃ s ∈ ss, Means m s v
  | _, _, .nil => by simp
  | _, _, .cons (s := s) (v := v) (ss := ss) (vs := vs) h1 h2 => by
    obtain ⟨h3, h4⟩ := meansL_mem h2
    constructor
    · intro x hx
      rcases List.mem_cons.1 hx with rfl | hx
      · exact ⟨v, by simp, h1⟩
      · obtain ⟨w, hw, h⟩ := h3 x hx
        exact ⟨w, List.mem_cons_of_mem _ hw, h⟩
    · intro x hx
      rcases List.mem_cons.1 hx with rfl | hx
      · exact ⟨s, by simp, h1⟩
      · obtain ⟨w, hw, h⟩ := h4 x hx
        exact ⟨w, List.mem_cons_of_mem _ hw, h⟩

theorem means_parts {m : Mem} {s : Slot} {v : Value} {a : Nat} (h : Means m s v) (ha : s.addr = some a) :
    ∃ c, m.cellAt a = some c ∧ c.handle a = s ∧ MeansL m c.slots v.parts := by
  cases h with
  | arr h1 h2 => cases ha; exact ⟨_, cellAt_iff.2 ⟨_, h1⟩, rfl, h2⟩
  | tup h1 h2 => cases ha; exact ⟨_, cellAt_iff.2 ⟨_, h1⟩, rfl, h2⟩
  | obj h =>
    cases h with
    | mk h1 h2 h3 =>
      cases ha
      refine ⟨_, cellAt_iff.2 ⟨_, h1⟩, rfl, meansL_append (meansF_values h2) ?_⟩
      cases h3 with
      | none => exact .nil
      | some h4 => exact .cons (.obj h4) .nil
  | _ => cases ha

theorem pair_containersL (ps : List Pair) : Pair.containersL ps = Value.containersL (ps.map Pair.value) := by
  induction ps with
  | nil => rfl
  | cons p ps ih =>
    obtain ⟨f, v⟩ := p
    simp [Pair.containersL, Value.containersL, ih, Pair.value]

theorem containersL_append (vs ws : List Value) :
    Value.containersL (vs ++ ws) = Value.containersL vs ++ Value.containersL ws := by
  induction vs with
  | nil => simp [Value.containersL]
  | cons v vs ih => simp [Value.containersL, ih]

/-- A container and what is in it. -/
theorem containers_eq {m : Mem} {s : Slot} {v : Value} (h : Means m s v) :
    v.containers = if s.addr.isSome then v :: Value.containersL v.parts else [] := by
  cases h with
  | null => simp [Value.containers, Slot.addr]
  | bool => simp [Value.containers, Slot.addr]
  | int => simp [Value.containers, Slot.addr]
  | frac => simp [Value.containers, Slot.addr]
  | str => simp [Value.containers, Slot.addr]
  | arr h1 h2 => simp [Value.containers, Slot.addr, Value.parts]
  | tup h1 h2 => simp [Value.containers, Slot.addr, Value.parts]
  | obj h =>
    cases h with
    | mk h1 h2 h3 =>
      cases h3 with
      | none => simp [Value.containers, Obj.containers, Obj.containersP, Slot.addr, Value.parts, pair_containersL]
      | some h4 =>
        simp [Value.containers, Obj.containers, Obj.containersP, Slot.addr, Value.parts, pair_containersL, containersL_append,
          Value.containersL]

theorem reach_head {m : Mem} {s s' : Slot} (h : m.Reach s s') :
    s = s' ∨ ∃ a b x, s.addr = some a ∧ m.at a = some b ∧ x ∈ b.cell.slots ∧ m.Reach x s' := by
  induction h with
  | refl => exact .inl rfl
  | step _ e1 e2 e3 ih =>
    rcases ih with rfl | ⟨a, b, x, h1, h2, h3, h4⟩
    · exact .inr ⟨_, _, _, e1, e2, e3, .refl⟩
    · exact .inr ⟨a, b, x, h1, h2, h3, .step h4 e1 e2 e3⟩

theorem reach_cons {m : Mem} {s x s' : Slot} {a : Nat} {b : Block} (h1 : s.addr = some a) (h2 : m.at a = some b)
    (h3 : x ∈ b.cell.slots) (h : m.Reach x s') : m.Reach s s' := by
  induction h with
  | refl => exact .step .refl h1 h2 h3
  | step _ e1 e2 e3 ih => exact .step ih e1 e2 e3

/-- The containers inside a value are the containers reached from its slot. -/
theorem containers_reach {m : Mem} (hm : m.Inv) : ∀ (n : Nat) (s : Slot) (v : Value), Means m s v → m.Fits s →
    (∀ a c, s.addr = some a → m.cellAt a = some c → c.id < n) →
    ∀ c, c ∈ v.containers ↔ ∃ s' a, m.Reach s s' ∧ s'.addr = some a ∧ Means m s' c := by
  intro n
  induction n with
  | zero =>
    intro s v hv hs hn c
    have ha : s.addr = none := by
      cases ha : s.addr with
      | none => rfl
      | some a =>
        obtain ⟨c, hc, -⟩ := hs a ha
        exact absurd (hn a c ha hc) (by omega)
    rw [containers_eq hv, ha]
    simp only [Option.isSome_none, Bool.false_eq_true, if_false, List.not_mem_nil, false_iff]
    rintro ⟨s', a, h1, h2, -⟩
    rcases reach_head h1 with rfl | ⟨a', b, x, h3, -⟩
    · rw [ha] at h2; cases h2
    · rw [ha] at h3; cases h3
  | succ n ih =>
    intro s v hv hs hn c
    cases ha : s.addr with
    | none =>
      rw [containers_eq hv, ha]
      simp only [Option.isSome_none, Bool.false_eq_true, if_false, List.not_mem_nil, false_iff]
      rintro ⟨s', a, h1, h2, -⟩
      rcases reach_head h1 with rfl | ⟨a', b, x, h3, -⟩
      · rw [ha] at h2; cases h2
      · rw [ha] at h3; cases h3
    | some a =>
      obtain ⟨ce, hce, hh, hp⟩ := means_parts hv ha
      obtain ⟨k, hk⟩ := cellAt_iff.1 hce
      have hb := (at_mem hk).1
      have hid := hn a ce ha hce
      obtain ⟨hp1, hp2⟩ := meansL_mem hp
      have hx : ∀ x ∈ ce.slots, ∀ w, Means m x w →
          ∀ c, c ∈ w.containers ↔ ∃ s' a, m.Reach x s' ∧ s'.addr = some a ∧ Means m s' c := by
        intro x hx w hw
        refine ih x w hw (hm.fitsC x (mem_contents.2 ⟨_, hb, hx⟩)) fun a' c' h1 h2 => ?_
        have := hm.acyclic _ hb x hx a' h1 c' h2
        exact Nat.lt_of_lt_of_le this (Nat.lt_succ_iff.1 hid)
      rw [containers_eq hv, ha]
      simp only [Option.isSome_some, if_true]
      rw [List.mem_cons, containersL_mem]
      constructor
      · rintro (rfl | ⟨w, hw, hc⟩)
        · exact ⟨s, a, .refl, ha, hv⟩
        · obtain ⟨x, hxs, hxw⟩ := hp2 w hw
          obtain ⟨s', a', h1, h2, h3⟩ := (hx x hxs w hxw c).1 hc
          exact ⟨s', a', reach_cons ha hk hxs h1, h2, h3⟩
      · rintro ⟨s', a', h1, h2, h3⟩
        rcases reach_head h1 with rfl | ⟨a1, b, x, e1, e2, e3, e4⟩
        · exact .inl (means_det h3 hv)
        · rw [ha] at e1; cases e1
          rw [hk] at e2; cases e2
          obtain ⟨w, hw, hxw⟩ := hp1 x e3
          exact .inr ⟨w, hw, (hx x e3 w hxw c).2 ⟨s', a', e4, h2, h3⟩⟩

theorem Mem.Inv.containers {m : Mem} (hm : m.Inv) {s : Slot} {v : Value} (hv : Means m s v) (hs : m.Fits s) (c : Value) :
    c ∈ v.containers ↔ ∃ s' a, m.Reach s s' ∧ s'.addr = some a ∧ Means m s' c := by
  refine containers_reach hm m.nextId s v hv hs (fun a c _ hc => ?_) c
  obtain ⟨k, hk⟩ := cellAt_iff.1 hc
  exact hm.old _ (at_mem hk).1

theorem countP_means {m : Mem} (hm : m.Inv) {b : Block} (hb : b ∈ m.blocks) : ∀ {ss : List Slot} {vs : List Value}, MeansL m ss vs →
    ss.countP (Slot.isAt b.addr) = vs.countP (Value.hasId b.cell.id)
  | _, _, .nil => rfl
  | _, _, .cons h1 h2 => by
    rw [List.countP_cons, List.countP_cons, countP_means hm hb h2, hasId_iff_isAt hm h1 hb]

/-- The count of a block, from the values. -/
theorem count_of_values {m : Mem} (hm : m.Inv) (hd : m.dropping = 0) (ss : List Slot) (hh : m.held.map Prod.snd = (ss : Multiset Slot))
    (vs : List Value) (hv : MeansL m ss vs) (cs : List Value) (hn : (cs.map Value.cid).Nodup)
    (hc : ∀ c, c ∈ cs ↔ c ∈ Value.containersL vs) (b : Block) (hb : b ∈ m.blocks) :
    b.count = vs.countP (Value.hasId b.cell.id) + (cs.flatMap Value.parts).countP (Value.hasId b.cell.id) := by
  have hfit : ∀ b ∈ m.blocks, m.Fits (b.cell.handle b.addr) := by
    intro b hb a ha
    rw [handle_addr] at ha
    cases ha
    exact ⟨_, hm.cellAt_of hb, rfl⟩
  have hex : ∀ b ∈ m.blocks, ∃ v, Means m (b.cell.handle b.addr) v := fun b hb => hm.means_of_fits (hfit b hb)
  choose! f hf using hex
  have hcid : ∀ b ∈ m.blocks, (f b).cid = b.cell.id := by
    intro b hb
    obtain ⟨c, h1, h2, -⟩ := (hf b hb).at_id (handle_addr _ _)
    rw [hm.cellAt_of hb] at h1
    cases h1
    exact h2.symm
  have hheld : ∀ s, s ∈ ss ↔ ∃ t, (t, s) ∈ m.held := by
    intro s
    rw [← Multiset.mem_coe, ← hh, Multiset.mem_map]
    constructor
    · rintro ⟨⟨t, s'⟩, h, rfl⟩; exact ⟨t, h⟩
    · rintro ⟨t, h⟩; exact ⟨(t, s), h, rfl⟩
  obtain ⟨hv1, hv2⟩ := meansL_mem hv
  have hperm : cs.Perm (m.blocks.map f) := by
    refine (List.perm_ext_iff_of_nodup hn.of_map ?_).2 fun c => ?_
    · refine List.Nodup.of_map Value.cid ?_
      rw [List.map_map]
      have : m.blocks.map (Value.cid ∘ f) = m.blocks.map (fun b => b.cell.id) :=
        List.map_congr_left fun b hb => hcid b hb
      rw [this]; exact hm.ids
    · rw [hc, containersL_mem, List.mem_map]
      constructor
      · rintro ⟨w, hw, hcw⟩
        obtain ⟨s, hs, hsw⟩ := hv2 w hw
        obtain ⟨t, ht⟩ := (hheld s).1 hs
        obtain ⟨s', a, h1, h2, h3⟩ := (hm.containers hsw (hm.fitsH _ ht) c).1 hcw
        obtain ⟨ce, h4, h5⟩ := reach_fits hm (hm.fitsH _ ht) h1 a h2
        obtain ⟨k, hk⟩ := cellAt_iff.1 h4
        have hb := (at_mem hk).1
        refine ⟨_, hb, ?_⟩
        have := hf _ hb
        rw [h5] at this
        exact means_det this h3
      · rintro ⟨b, hb, rfl⟩
        obtain ⟨t, s, h1, h2⟩ := hm.rooted m.nextId b hb (Nat.sub_le _ _)
        rcases h1 with h1 | h1
        · obtain ⟨w, hw, hsw⟩ := hv1 s ((hheld s).2 ⟨t, h1⟩)
          exact ⟨w, hw, (hm.containers hsw (hm.fitsH _ h1) _).2 ⟨_, _, h2, handle_addr _ _, hf b hb⟩⟩
        · rw [hd] at h1; exact absurd h1 (Multiset.notMem_zero _)
  have hfall : m.falling b.addr = 0 := by unfold Mem.falling; rw [hd]; rfl
  have hhand : m.handles b.addr = vs.countP (Value.hasId b.cell.id) := by
    rw [← countP_means hm hb hv]
    have : (m.held.map Prod.snd).countP (fun s => Slot.isAt b.addr s = true) = m.handles b.addr := by
      rw [Multiset.countP_map]
      unfold Mem.handles
      rw [Multiset.countP_eq_card_filter]
    rw [← this, hh, Multiset.coe_countP]
    congr 1
    funext x
    simp
  have hpl : m.places b.addr = (cs.flatMap Value.parts).countP (Value.hasId b.cell.id) := by
    rw [(hperm.flatMap_right Value.parts).countP_eq]
    rw [List.flatMap_map]
    unfold Mem.places
    rw [List.countP_flatMap, List.countP_flatMap]
    congr 1
    refine List.map_congr_left fun x hx => ?_
    obtain ⟨c, h1, h2, h3⟩ := means_parts (hf x hx) (handle_addr _ _)
    rw [hm.cellAt_of hx] at h1
    cases h1
    exact countP_means hm hb h3
  have := hm.count b hb
  omega

/-! ## Drop glue -/

/-- What is left to drop, at most. -/
def Mem.load (m : Mem) : Nat := Multiset.card m.dropping + m.contents.length

theorem load_step {m m' : Mem} (hm : m.Inv) (h : DropStep m m') : m'.load + 1 = m.load ∧ m'.held = m.held ∧ m'.nextId = m.nextId := by
  cases h with
  | forget t s hs hn =>
    obtain ⟨rest, hr⟩ := Multiset.exists_cons_of_mem hs
    rw [hr, Multiset.erase_cons_head]
    refine ⟨?_, rfl, rfl⟩
    unfold Mem.load Mem.contents
    rw [hr, Multiset.card_cons]
    dsimp only
    omega
  | lower t a s b hs ha hb h1 =>
    obtain ⟨rest, hr⟩ := Multiset.exists_cons_of_mem hs
    rw [hr, Multiset.erase_cons_head]
    refine ⟨?_, rfl, rfl⟩
    have := contents_map (m := m) (m' := { m with blocks := m.lower a, dropping := rest })
      (fun x => if x.addr = a then { x with count := x.count - 1 } else x) (fun b => by split <;> rfl) rfl
    unfold Mem.load
    rw [this, hr, Multiset.card_cons]
    dsimp only
    omega
  | free t a s b hs ha hb h1 =>
    obtain ⟨rest, hr⟩ := Multiset.exists_cons_of_mem hs
    rw [hr, Multiset.erase_cons_head]
    refine ⟨?_, rfl, rfl⟩
    obtain ⟨hbm, rfl⟩ := at_mem hb
    have := contents_without hm.addrs hbm (fun _ => true)
    simp only [List.countP_true] at this
    unfold Mem.load Mem.contents Mem.without
    rw [hr, Multiset.card_cons, Multiset.card_add]
    simp only [Multiset.coe_card, List.length_map]
    omega

theorem drop_progress {m : Mem} (hm : m.Inv) (h : m.dropping ≠ 0) : ∃ m', DropStep m m' := by
  obtain ⟨⟨t, s⟩, hs⟩ := Multiset.exists_mem_of_ne_zero h
  cases ha : s.addr with
  | none => exact ⟨_, .forget m t s hs ha⟩
  | some a =>
    obtain ⟨c, hc, -⟩ := hm.fitsD _ hs a ha
    obtain ⟨k, hk⟩ := cellAt_iff.1 hc
    by_cases h1 : k = 1
    · exact ⟨_, .free m t a s _ hs ha hk h1⟩
    · exact ⟨_, .lower m t a s _ hs ha hk h1⟩

theorem drop_finishes : ∀ (n : Nat) (m : Mem), m.Inv → m.load ≤ n → ∃ m', DropExec m m' ∧ m'.dropping = 0 ∧ m'.held = m.held := by
  intro n
  induction n with
  | zero =>
    intro m _ h
    refine ⟨m, .nil m, ?_, rfl⟩
    have : Multiset.card m.dropping = 0 := by unfold Mem.load at h; omega
    exact Multiset.card_eq_zero.1 this
  | succ n ih =>
    intro m hm h
    by_cases h0 : m.dropping = 0
    · exact ⟨m, .nil m, h0, rfl⟩
    · obtain ⟨m1, h1⟩ := drop_progress hm h0
      obtain ⟨h2, h3, -⟩ := load_step hm h1
      obtain ⟨m2, h4, h5, h6⟩ := ih m1 (hm.dropStep h1) (by omega)
      exact ⟨m2, .cons h1 h4, h5, h6.trans h3⟩

end Over
