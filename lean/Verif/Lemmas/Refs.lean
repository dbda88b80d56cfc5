import Verif.Spec.Refs

/-! # Reference counting: the invariant of all executions -/

namespace Over

/-- The contents at an address. -/
def Mem.cellAt (m : Mem) (a : Nat) : Option Cell := (m.at a).map Block.cell

/-- A slot is a scalar or the handle of an allocated container of its kind. -/
def Mem.Fits (m : Mem) (s : Slot) : Prop := ∀ a, s.addr = some a → ∃ c, m.cellAt a = some c ∧ c.handle a = s

/-- All values inside allocated containers. -/
def Mem.contents (m : Mem) : List Slot := m.blocks.flatMap (fun b => b.cell.slots)

structure Mem.Inv (m : Mem) : Prop where
  addrs : (m.blocks.map Block.addr).Nodup
  ids : (m.blocks.map (fun b => b.cell.id)).Nodup
  old : ∀ b ∈ m.blocks, b.cell.id < m.nextId
  fitsH : ∀ h ∈ m.held, m.Fits h.2
  fitsD : ∀ h ∈ m.dropping, m.Fits h.2
  fitsC : ∀ s ∈ m.contents, m.Fits s
  pos : ∀ b ∈ m.blocks, 1 ≤ b.count
  count : ∀ b ∈ m.blocks, b.count = m.handles b.addr + m.falling b.addr + m.places b.addr
  acyclic : ∀ b ∈ m.blocks, ∀ s ∈ b.cell.slots, ∀ a, s.addr = some a → ∀ c, m.cellAt a = some c → c.id < b.cell.id

theorem at_mem {m : Mem} {a : Nat} {b : Block} (h : m.at a = some b) : b ∈ m.blocks ∧ b.addr = a := by
  have h1 := List.mem_of_find?_eq_some h
  have h2 := List.find?_some h
  exact ⟨h1, by simpa using h2⟩

theorem find_addr {bs : List Block} (hn : (bs.map Block.addr).Nodup) {b : Block} (hb : b ∈ bs) :
    bs.find? (fun x => x.addr == b.addr) = some b := by
  induction bs with
  | nil => cases hb
  | cons x xs ih =>
    rw [List.map_cons, List.nodup_cons] at hn
    rcases List.mem_cons.1 hb with rfl | hb
    · simp
    · have : x.addr ≠ b.addr := fun e => hn.1 (e ▸ List.mem_map_of_mem hb)
      rw [List.find?_cons_of_neg (by simpa using this)]
      exact ih hn.2 hb

theorem Mem.Inv.at_of {m : Mem} (hm : m.Inv) {b : Block} (hb : b ∈ m.blocks) : m.at b.addr = some b := find_addr hm.addrs hb

theorem at_none {m : Mem} {a : Nat} (h : m.at a = none) : ∀ b ∈ m.blocks, b.addr ≠ a := by
  intro b hb e
  have := List.find?_eq_none.1 h b hb
  simp [e] at this

theorem cellAt_iff {m : Mem} {a : Nat} {c : Cell} : m.cellAt a = some c ↔ ∃ k, m.at a = some ⟨a, k, c⟩ := by
  unfold Mem.cellAt
  constructor
  · intro h
    cases hb : m.at a with
    | none => rw [hb] at h; cases h
    | some b =>
      rw [hb] at h
      obtain ⟨-, e⟩ := at_mem hb
      obtain ⟨a', k, c'⟩ := b
      cases e
      simp only [Option.map_some, Option.some.injEq] at h
      subst h
      exact ⟨k, rfl⟩
  · rintro ⟨k, h⟩
    rw [h]; rfl

theorem Mem.Inv.cellAt_of {m : Mem} (hm : m.Inv) {b : Block} (hb : b ∈ m.blocks) : m.cellAt b.addr = some b.cell := by
  unfold Mem.cellAt; rw [hm.at_of hb]; rfl

theorem handle_addr (c : Cell) (a : Nat) : (c.handle a).addr = some a := by cases c <;> rfl

theorem at_map {bs : List Block} (f : Block → Block) (hf : ∀ b, (f b).addr = b.addr) (a : Nat) :
    (bs.map f).find? (fun b => b.addr == a) = (bs.find? (fun b => b.addr == a)).map f := by
  rw [List.find?_map]
  congr 2
  funext b
  simp [hf]

/-- Changing counts does not change contents. -/
theorem cellAt_map {m m' : Mem} (f : Block → Block) (hf : ∀ b, (f b).addr = b.addr) (hc : ∀ b, (f b).cell = b.cell)
    (h : m'.blocks = m.blocks.map f) (a : Nat) : m'.cellAt a = m.cellAt a := by
  unfold Mem.cellAt Mem.at
  rw [h, at_map f hf]
  cases m.blocks.find? (fun b => b.addr == a) with
  | none => rfl
  | some b => simp [hc]

theorem contents_map {m m' : Mem} (f : Block → Block) (hc : ∀ b, (f b).cell = b.cell)
    (h : m'.blocks = m.blocks.map f) : m'.contents = m.contents := by
  unfold Mem.contents
  rw [h, List.flatMap_map]
  congr 1
  funext b
  rw [hc]

theorem Fits.congr {m m' : Mem} (h : ∀ a, m'.cellAt a = m.cellAt a) {s : Slot} (hs : m.Fits s) : m'.Fits s := by
  intro a ha
  rw [h]; exact hs a ha

theorem places_eq (m : Mem) (a : Nat) : m.places a = m.contents.countP (Slot.isAt a) := rfl

theorem isAt_iff {a : Nat} {s : Slot} : s.isAt a = true ↔ s.addr = some a := by
  unfold Slot.isAt; exact beq_iff_eq

theorem isAt_false {a : Nat} {s : Slot} (h : s.addr ≠ some a) : s.isAt a = false := by
  cases h' : s.isAt a with
  | false => rfl
  | true => exact absurd (isAt_iff.1 h') h

theorem mem_contents {m : Mem} {s : Slot} : s ∈ m.contents ↔ ∃ b ∈ m.blocks, s ∈ b.cell.slots := List.mem_flatMap

theorem reach_fits {m : Mem} (hm : m.Inv) {s s' : Slot} (hs : m.Fits s) (h : m.Reach s s') : m.Fits s' := by
  induction h with
  | refl => exact hs
  | step _ _ hb hs _ => exact hm.fitsC _ (mem_contents.2 ⟨_, (at_mem hb).1, hs⟩)

/-- Invariance under changes of counts. -/
theorem Mem.Inv.of_map {m m' : Mem} (hm : m.Inv) (f : Block → Block) (hf : ∀ b, (f b).addr = b.addr)
    (hc : ∀ b, (f b).cell = b.cell) (hb : m'.blocks = m.blocks.map f) (hn : m.nextId ≤ m'.nextId)
    (hH : ∀ h ∈ m'.held, m.Fits h.2) (hD : ∀ h ∈ m'.dropping, m.Fits h.2)
    (hcount : ∀ b ∈ m.blocks, 1 ≤ (f b).count ∧ (f b).count = m'.handles b.addr + m'.falling b.addr + m.places b.addr) :
    m'.Inv := by
  have hcell := cellAt_map f hf hc hb
  have hcont := contents_map f hc hb
  constructor
  · rw [hb, List.map_map]
    have : Block.addr ∘ f = Block.addr := funext fun b => hf b
    rw [this]; exact hm.addrs
  · rw [hb, List.map_map]
    have : (fun b : Block => b.cell.id) ∘ f = (fun b => b.cell.id) := funext fun b => by simp [hc]
    rw [this]; exact hm.ids
  · intro b h
    rw [hb] at h
    obtain ⟨x, hx, rfl⟩ := List.mem_map.1 h
    rw [hc]; exact Nat.lt_of_lt_of_le (hm.old x hx) hn
  · intro h hh; exact Fits.congr hcell (hH h hh)
  · intro h hh; exact Fits.congr hcell (hD h hh)
  · intro s hs; rw [hcont] at hs; exact Fits.congr hcell (hm.fitsC s hs)
  · intro b h
    rw [hb] at h
    obtain ⟨x, hx, rfl⟩ := List.mem_map.1 h
    exact (hcount x hx).1
  · intro b h
    rw [hb] at h
    obtain ⟨x, hx, rfl⟩ := List.mem_map.1 h
    rw [hf, places_eq, hcont, ← places_eq]
    exact (hcount x hx).2
  · intro b h s hs a ha c hcc
    rw [hb] at h
    obtain ⟨x, hx, rfl⟩ := List.mem_map.1 h
    rw [hc] at hs ⊢
    rw [hcell] at hcc
    exact hm.acyclic x hx s hs a ha c hcc

theorem handles_cons {m : Mem} {t : Nat} {s : Slot} {rest : Multiset (Nat × Slot)} (h : m.held = (t, s) ::ₘ rest) (a : Nat) :
    m.handles a = rest.countP (fun h => h.2.isAt a) + if s.isAt a = true then 1 else 0 := by
  unfold Mem.handles
  rw [h, Multiset.countP_cons]

theorem falling_cons {m : Mem} {t : Nat} {s : Slot} {rest : Multiset (Nat × Slot)} (h : m.dropping = (t, s) ::ₘ rest) (a : Nat) :
    m.falling a = rest.countP (fun h => h.2.isAt a) + if s.isAt a = true then 1 else 0 := by
  unfold Mem.falling
  rw [h, Multiset.countP_cons]

theorem countP_tag (t a : Nat) (ss : List Slot) :
    (ss.map (Prod.mk t) : Multiset (Nat × Slot)).countP (fun h => h.2.isAt a) = ss.countP (Slot.isAt a) := by
  rw [Multiset.coe_countP, List.countP_map]
  congr 1
  funext x
  simp

theorem mem_tag {t : Nat} {ss : List Slot} {h : Nat × Slot} (hh : h ∈ (ss.map (Prod.mk t) : Multiset (Nat × Slot))) :
    h.2 ∈ ss := by
  rw [Multiset.mem_coe] at hh
  obtain ⟨x, hx, rfl⟩ := List.mem_map.1 hh
  exact hx

/-- The invariant after an allocation. -/
theorem Mem.Inv.alloc {m : Mem} (hm : m.Inv) {t a : Nat} {c : Cell} (ha : m.at a = none) (hid : c.id = m.nextId)
    (hle : (c.slots.map (Prod.mk t) : Multiset (Nat × Slot)) ≤ m.held) : (m.alloc t a c).Inv := by
  have hne := at_none ha
  have hcell : ∀ a', a' ≠ a → (m.alloc t a c).cellAt a' = m.cellAt a' := by
    intro a' h
    unfold Mem.cellAt Mem.at Mem.alloc
    rw [List.find?_cons_of_neg (by simpa using fun e => h e.symm)]
  have hnone : m.cellAt a = none := by unfold Mem.cellAt; rw [ha]; rfl
  have hfits : ∀ s, m.Fits s → (m.alloc t a c).Fits s ∧ s.addr ≠ some a := by
    intro s hs
    have h1 : s.addr ≠ some a := by
      intro e
      obtain ⟨c', h, -⟩ := hs a e
      rw [hnone] at h; cases h
    refine ⟨fun a' h' => ?_, h1⟩
    rw [hcell a' (by rintro rfl; exact h1 h')]
    exact hs a' h'
  have hmoved : ∀ s ∈ c.slots, m.Fits s := by
    intro s hs
    have : (t, s) ∈ m.held := Multiset.mem_of_le hle (Multiset.mem_coe.2 (List.mem_map_of_mem hs))
    exact hm.fitsH _ this
  have hheld : ∀ h ∈ m.held - (c.slots.map (Prod.mk t) : Multiset (Nat × Slot)), m.Fits h.2 := fun h hh =>
    hm.fitsH h (Multiset.mem_of_le (Multiset.sub_le_self _ _) hh)
  have hself : (m.alloc t a c).cellAt a = some c := by
    unfold Mem.cellAt Mem.at Mem.alloc
    rw [List.find?_cons_of_pos (by simp)]
    rfl
  have hcont : (m.alloc t a c).contents = c.slots ++ m.contents := by
    unfold Mem.contents Mem.alloc; rw [List.flatMap_cons]
  constructor
  · simp only [Mem.alloc, List.map_cons, List.nodup_cons]
    exact ⟨fun h => by
      obtain ⟨b, hb, e⟩ := List.mem_map.1 h
      exact hne b hb e, hm.addrs⟩
  · simp only [Mem.alloc, List.map_cons, List.nodup_cons]
    exact ⟨fun h => by
      obtain ⟨b, hb, e⟩ := List.mem_map.1 h
      have := hm.old b hb
      omega, hm.ids⟩
  · intro b hb
    show b.cell.id < m.nextId + 1
    rcases List.mem_cons.1 hb with rfl | hb
    · exact hid ▸ Nat.lt_succ_self _
    · exact Nat.lt_succ_of_lt (hm.old b hb)
  · intro h hh
    rcases Multiset.mem_cons.1 hh with rfl | hh
    · intro a' ha'
      rw [handle_addr] at ha'
      cases ha'
      exact ⟨c, hself, rfl⟩
    · exact (hfits _ (hheld h hh)).1
  · intro h hh; exact (hfits _ (hm.fitsD h hh)).1
  · intro s hs
    rw [hcont] at hs
    rcases List.mem_append.1 hs with hs | hs
    · exact (hfits _ (hmoved s hs)).1
    · exact (hfits _ (hm.fitsC s hs)).1
  · intro b hb
    rcases List.mem_cons.1 hb with rfl | hb
    · exact Nat.le_refl 1
    · exact hm.pos b hb
  · intro b hb
    have e1 : ∀ x, (m.alloc t a c).handles x = (m.held - (c.slots.map (Prod.mk t) : Multiset (Nat × Slot))).countP (fun h => h.2.isAt x) +
        if (c.handle a).isAt x = true then 1 else 0 := fun x => handles_cons rfl x
    have e2 : ∀ x, (m.alloc t a c).places x = c.slots.countP (Slot.isAt x) + m.places x := by
      intro x; rw [places_eq, hcont, List.countP_append]; rfl
    have e3 : ∀ x, (m.alloc t a c).falling x = m.falling x := fun x => rfl
    rw [e1, e2, e3]
    rcases List.mem_cons.1 hb with rfl | hb
    · have z1 : (m.held - (c.slots.map (Prod.mk t) : Multiset (Nat × Slot))).countP (fun h => h.2.isAt a) = 0 :=
        Multiset.countP_eq_zero.2 fun h hh => by rw [isAt_false (hfits _ (hheld h hh)).2]; simp
      have z2 : c.slots.countP (Slot.isAt a) = 0 :=
        List.countP_eq_zero.2 fun s hs => by rw [isAt_false (hfits _ (hmoved s hs)).2]; simp
      have z3 : m.places a = 0 :=
        List.countP_eq_zero.2 fun s hs => by rw [isAt_false (hfits _ (hm.fitsC s hs)).2]; simp
      have z4 : m.falling a = 0 :=
        Multiset.countP_eq_zero.2 fun h hh => by rw [isAt_false (hfits _ (hm.fitsD h hh)).2]; simp
      have z5 : (c.handle a).isAt a = true := isAt_iff.2 (handle_addr c a)
      simp only [z1, z2, z3, z4, z5, if_pos]
    · have hba := hne b hb
      have z5 : (c.handle a).isAt b.addr = false := isAt_false (by
        rw [handle_addr]; intro e; cases e; exact hba rfl)
      rw [Multiset.countP_sub hle, countP_tag, z5]
      have hcl : c.slots.countP (Slot.isAt b.addr) ≤ m.handles b.addr := by
        rw [← countP_tag t]
        exact Multiset.countP_le_of_le _ hle
      have := hm.count b hb
      unfold Mem.handles at this hcl
      simp only [Bool.false_eq_true, if_false]
      omega
  · intro b hb s hs a' ha' c' hc'
    rcases List.mem_cons.1 hb with rfl | hb
    · have := (hfits _ (hmoved s hs)).2
      rw [hcell a' (by rintro rfl; exact this ha')] at hc'
      obtain ⟨k, hk⟩ := cellAt_iff.1 hc'
      have := hm.old _ (at_mem hk).1
      show c'.id < c.id
      rw [hid]; exact this
    · have := (hfits _ (hm.fitsC s (mem_contents.2 ⟨b, hb, hs⟩))).2
      rw [hcell a' (by rintro rfl; exact this ha')] at hc'
      exact hm.acyclic b hb s hs a' ha' c' hc'

/-- Removing a block: its contents and the rest. -/
theorem contents_without {bs : List Block} (hn : (bs.map Block.addr).Nodup) {b : Block} (hb : b ∈ bs) (p : Slot → Bool) :
    (bs.flatMap (fun b => b.cell.slots)).countP p =
      b.cell.slots.countP p + ((bs.filter (fun x => x.addr != b.addr)).flatMap (fun b => b.cell.slots)).countP p := by
  induction bs with
  | nil => cases hb
  | cons x xs ih =>
    rw [List.map_cons, List.nodup_cons] at hn
    rcases List.mem_cons.1 hb with rfl | hb
    · have : xs.filter (fun x => x.addr != b.addr) = xs := List.filter_eq_self.2 fun y hy => by
        have : y.addr ≠ b.addr := fun e => hn.1 (e ▸ List.mem_map_of_mem hy)
        simpa using this
      rw [List.filter_cons_of_neg (by simp), this, List.flatMap_cons, List.countP_append]
    · have : x.addr ≠ b.addr := fun e => hn.1 (e ▸ List.mem_map_of_mem hb)
      rw [List.filter_cons_of_pos (by simpa using this), List.flatMap_cons, List.flatMap_cons, List.countP_append,
        List.countP_append, ih hn.2 hb]
      omega

/-- The invariant after freeing a block. -/
theorem Mem.Inv.free {m : Mem} (hm : m.Inv) {t a : Nat} {s : Slot} {b : Block} (hd : (t, s) ∈ m.dropping)
    (hs : s.addr = some a) (hb : m.at a = some b) (h1 : b.count = 1) :
    Mem.Inv { m with blocks := m.without a,
                     dropping := (b.cell.slots.map (Prod.mk t) : Multiset (Nat × Slot)) + m.dropping.erase (t, s) } := by
  obtain ⟨rest, hr⟩ := Multiset.exists_cons_of_mem hd
  rw [hr, Multiset.erase_cons_head]
  obtain ⟨hbm, rfl⟩ := at_mem hb
  set m' : Mem := { m with blocks := m.without b.addr,
                           dropping := (b.cell.slots.map (Prod.mk t) : Multiset (Nat × Slot)) + rest } with hm'
  have hcell : ∀ a', a' ≠ b.addr → m'.cellAt a' = m.cellAt a' := by
    intro a' h
    unfold Mem.cellAt Mem.at
    show ((m.blocks.filter _).find? _).map _ = _
    rw [List.find?_filter]
    congr 2
    funext x
    by_cases e : x.addr = a'
    · simp [e, h]
    · simp [e]
  have hcnt := hm.count b hbm
  have hfall := falling_cons hr b.addr
  rw [if_pos (isAt_iff.2 hs)] at hfall
  have zH : m.handles b.addr = 0 := by omega
  have zP : m.places b.addr = 0 := by omega
  have zR : rest.countP (fun h => h.2.isAt b.addr) = 0 := by omega
  have nH : ∀ h ∈ m.held, h.2.addr ≠ some b.addr := fun h hh e => Multiset.countP_eq_zero.1 zH h hh (isAt_iff.2 e)
  have nR : ∀ h ∈ rest, h.2.addr ≠ some b.addr := fun h hh e => Multiset.countP_eq_zero.1 zR h hh (isAt_iff.2 e)
  have nC : ∀ x ∈ m.contents, x.addr ≠ some b.addr := fun x hx e => List.countP_eq_zero.1 zP x hx (isAt_iff.2 e)
  have hfits : ∀ x, m.Fits x → x.addr ≠ some b.addr → m'.Fits x := by
    intro x hx hne a' ha'
    rw [hcell a' (by rintro rfl; exact hne ha')]
    exact hx a' ha'
  have hsub : ∀ x ∈ m'.blocks, x ∈ m.blocks ∧ x.addr ≠ b.addr := by
    intro x hx
    have := List.mem_filter.1 hx
    exact ⟨this.1, by simpa using this.2⟩
  have hcont : ∀ x ∈ m'.contents, x ∈ m.contents := by
    intro x hx
    obtain ⟨y, hy, hxy⟩ := mem_contents.1 hx
    exact mem_contents.2 ⟨y, (hsub y hy).1, hxy⟩
  constructor
  · exact (hm.addrs.sublist (List.filter_sublist.map _))
  · exact (hm.ids.sublist (List.filter_sublist.map _))
  · intro x hx; exact hm.old x (hsub x hx).1
  · intro h hh; exact hfits _ (hm.fitsH h hh) (nH h hh)
  · intro h hh
    rcases Multiset.mem_add.1 hh with hh | hh
    · have := mem_contents.2 ⟨b, hbm, mem_tag hh⟩
      exact hfits _ (hm.fitsC _ this) (nC _ this)
    · exact hfits _ (hm.fitsD h (by rw [hr]; exact Multiset.mem_cons_of_mem hh)) (nR h hh)
  · intro x hx; exact hfits _ (hm.fitsC x (hcont x hx)) (nC x (hcont x hx))
  · intro x hx; exact hm.pos x (hsub x hx).1
  · intro x hx
    obtain ⟨hx1, hx2⟩ := hsub x hx
    have e1 : m'.falling x.addr = b.cell.slots.countP (Slot.isAt x.addr) + rest.countP (fun h => h.2.isAt x.addr) := by
      show Multiset.countP _ (_ + _) = _
      rw [Multiset.countP_add, countP_tag]
    have e2 : m.places x.addr = b.cell.slots.countP (Slot.isAt x.addr) + m'.places x.addr :=
      contents_without hm.addrs hbm _
    have e3 : m'.handles x.addr = m.handles x.addr := rfl
    have e4 := falling_cons hr x.addr
    rw [if_neg (by rw [isAt_false (by rw [hs]; intro e; exact hx2 (Option.some.inj e).symm)]; simp)] at e4
    have := hm.count x hx1
    omega
  · intro x hx y hy a' ha' c hc
    obtain ⟨hx1, hx2⟩ := hsub x hx
    have := nC y (mem_contents.2 ⟨x, hx1, hy⟩)
    rw [hcell a' (by rintro rfl; exact this ha')] at hc
    exact hm.acyclic x hx1 y hy a' ha' c hc

theorem Mem.Inv.init : Mem.init.Inv := by
  constructor <;> simp [Mem.init, Mem.contents]

theorem Mem.Inv.dropStep {m m' : Mem} (hm : m.Inv) (h : DropStep m m') : m'.Inv := by
  cases h with
  | forget t s hs hn =>
    obtain ⟨rest, hr⟩ := Multiset.exists_cons_of_mem hs
    rw [hr, Multiset.erase_cons_head]
    refine hm.of_map id (fun _ => rfl) (fun _ => rfl) (List.map_id _).symm (Nat.le_refl _) hm.fitsH ?_ fun b hb =>
      ⟨hm.pos b hb, ?_⟩
    · intro h hh; exact hm.fitsD h (by rw [hr]; exact Multiset.mem_cons_of_mem hh)
    · have := hm.count b hb
      rw [falling_cons hr, if_neg (by rw [isAt_false (by rw [hn]; simp)]; simp)] at this
      exact this
  | lower t a s b hs ha hb h1 =>
    obtain ⟨rest, hr⟩ := Multiset.exists_cons_of_mem hs
    rw [hr, Multiset.erase_cons_head]
    obtain ⟨hbm, rfl⟩ := at_mem hb
    refine hm.of_map (fun x => if x.addr = b.addr then { x with count := x.count - 1 } else x)
      (fun b => by split <;> rfl) (fun b => by split <;> rfl) rfl (Nat.le_refl _) hm.fitsH ?_ fun x hx => ?_
    · intro h hh; exact hm.fitsD h (by rw [hr]; exact Multiset.mem_cons_of_mem hh)
    · have hc := hm.count x hx
      have hp := hm.pos x hx
      rw [falling_cons hr] at hc
      show 1 ≤ Block.count (if _ then _ else _) ∧ Block.count (if _ then _ else _) = m.handles x.addr + rest.countP _ + _
      by_cases e : x.addr = b.addr
      · have exb : x = b := by
          have := hm.at_of hx
          rw [e, hb] at this
          exact (Option.some.inj this).symm
        rw [if_pos e]
        rw [if_pos (isAt_iff.2 (by rw [ha, e]))] at hc
        have hx1 : x.count ≠ 1 := exb ▸ h1
        refine ⟨by show 1 ≤ x.count - 1; omega, ?_⟩
        show x.count - 1 = _
        omega
      · rw [if_neg e]
        rw [if_neg (by rw [isAt_false (by rw [ha]; intro h; exact e (Option.some.inj h).symm)]; simp)] at hc
        exact ⟨hp, by omega⟩
  | free t a s b hs ha hb h1 => exact hm.free hs ha hb h1

theorem Mem.Inv.step {m m' : Mem} (hm : m.Inv) (h : MemStep m m') : m'.Inv := by
  cases h with
  | scalar t s hs =>
    refine hm.of_map id (fun _ => rfl) (fun _ => rfl) (List.map_id _).symm (Nat.le_refl _) ?_ hm.fitsD fun b hb =>
      ⟨hm.pos b hb, ?_⟩
    · intro h hh
      rcases Multiset.mem_cons.1 hh with rfl | hh
      · intro a ha; rw [hs] at ha; cases ha
      · exact hm.fitsH h hh
    · rw [handles_cons (rest := m.held) rfl, if_neg (by rw [isAt_false (by rw [hs]; simp)]; simp)]
      exact hm.count b hb
  | clone t t' s s' hs hr =>
    have hfit := reach_fits hm (hm.fitsH _ hs) hr
    refine hm.of_map (fun b => if s'.addr = some b.addr then { b with count := b.count + 1 } else b)
      (fun b => by split <;> rfl) (fun b => by split <;> rfl) rfl (Nat.le_refl _) ?_ hm.fitsD fun b hb => ?_
    · intro h hh
      rcases Multiset.mem_cons.1 hh with rfl | hh
      · exact hfit
      · exact hm.fitsH h hh
    · rw [handles_cons (rest := m.held) rfl]
      have := hm.count b hb
      have hp := hm.pos b hb
      unfold Mem.handles at this
      show 1 ≤ Block.count (if _ then _ else _) ∧ Block.count (if _ then _ else _) = _
      by_cases e : s'.addr = some b.addr
      · rw [if_pos e, if_pos (isAt_iff.2 e)]
        refine ⟨by show 1 ≤ b.count + 1; omega, ?_⟩
        show b.count + 1 = _ + m.falling b.addr + _
        omega
      · rw [if_neg e, if_neg (by rw [isAt_false e]; simp)]
        refine ⟨hp, ?_⟩
        show b.count = _ + m.falling b.addr + _
        omega
  | newArr t a ty vs ha hle => exact hm.alloc ha rfl hle
  | newTup t a vs ha hle => exact hm.alloc ha rfl hle
  | newObj t a ps par ha hle => exact hm.alloc ha rfl hle
  | tick =>
    exact hm.of_map id (fun _ => rfl) (fun _ => rfl) (List.map_id _).symm (Nat.le_succ _) hm.fitsH hm.fitsD fun b hb =>
      ⟨hm.pos b hb, hm.count b hb⟩
  | send t t' s hs =>
    obtain ⟨rest, hr⟩ := Multiset.exists_cons_of_mem hs
    rw [hr, Multiset.erase_cons_head]
    refine hm.of_map id (fun _ => rfl) (fun _ => rfl) (List.map_id _).symm (Nat.le_refl _) ?_ hm.fitsD fun b hb =>
      ⟨hm.pos b hb, ?_⟩
    · intro h hh
      rcases Multiset.mem_cons.1 hh with rfl | hh
      · exact hm.fitsH (t, s) hs
      · exact hm.fitsH h (by rw [hr]; exact Multiset.mem_cons_of_mem hh)
    · have := hm.count b hb
      rw [handles_cons hr] at this
      rw [handles_cons (rest := rest) rfl]
      exact this
  | drop t s hs =>
    obtain ⟨rest, hr⟩ := Multiset.exists_cons_of_mem hs
    rw [hr, Multiset.erase_cons_head]
    refine hm.of_map id (fun _ => rfl) (fun _ => rfl) (List.map_id _).symm (Nat.le_refl _) ?_ ?_ fun b hb =>
      ⟨hm.pos b hb, ?_⟩
    · intro h hh; exact hm.fitsH h (by rw [hr]; exact Multiset.mem_cons_of_mem hh)
    · intro h hh
      rcases Multiset.mem_cons.1 hh with rfl | hh
      · exact hm.fitsH _ hs
      · exact hm.fitsD h hh
    · have := hm.count b hb
      rw [handles_cons hr] at this
      rw [falling_cons (rest := m.dropping) rfl]
      show b.count = _
      unfold Mem.falling at this
      unfold Mem.handles
      dsimp only
      omega
  | glue h => exact hm.dropStep h

theorem Mem.Inv.exec {m m' : Mem} (hm : m.Inv) (h : MemExec m m') : m'.Inv := by
  induction h with
  | nil => exact hm
  | snoc _ hs ih => exact ih.step hs

/-! ## No leaks -/

/-- A container is reached from an owned value or one that is being dropped. -/
theorem Mem.Inv.rooted {m : Mem} (hm : m.Inv) : ∀ (n : Nat) (b : Block), b ∈ m.blocks → m.nextId - b.cell.id ≤ n →
    ∃ t s, ((t, s) ∈ m.held ∨ (t, s) ∈ m.dropping) ∧ m.Reach s (b.cell.handle b.addr) := by
  intro n
  induction n with
  | zero =>
    intro b hb hn
    have := hm.old b hb
    omega
  | succ n ih =>
    intro b hb hn
    have hfit : ∀ s, m.Fits s → s.addr = some b.addr → s = b.cell.handle b.addr := by
      intro s hs e
      obtain ⟨c, h1, h2⟩ := hs _ e
      rw [hm.cellAt_of hb] at h1
      cases h1
      exact h2.symm
    have hc := hm.count b hb
    have hp := hm.pos b hb
    by_cases h0 : m.handles b.addr = 0
    · by_cases h1 : m.falling b.addr = 0
      · have h2 : 0 < m.places b.addr := by omega
        obtain ⟨s, hs, e⟩ := List.countP_pos_iff.1 h2
        obtain ⟨b', hb', hs'⟩ := mem_contents.1 hs
        have e := isAt_iff.1 e
        have hlt := hm.acyclic b' hb' s hs' _ e _ (hm.cellAt_of hb)
        have := hm.old b' hb'
        obtain ⟨t, s0, h3, h4⟩ := ih b' hb' (by omega)
        refine ⟨t, s0, h3, ?_⟩
        rw [← hfit s (hm.fitsC s hs) e]
        exact .step h4 (handle_addr _ _) (hm.at_of hb') hs'
      · obtain ⟨h, hh, e⟩ := Multiset.countP_pos.1 (Nat.pos_of_ne_zero h1)
        refine ⟨h.1, h.2, .inr hh, ?_⟩
        rw [← hfit h.2 (hm.fitsD _ hh) (isAt_iff.1 e)]
        exact .refl
    · obtain ⟨h, hh, e⟩ := Multiset.countP_pos.1 (Nat.pos_of_ne_zero h0)
      refine ⟨h.1, h.2, .inl hh, ?_⟩
      rw [← hfit h.2 (hm.fitsH _ hh) (isAt_iff.1 e)]
      exact .refl

end Over
