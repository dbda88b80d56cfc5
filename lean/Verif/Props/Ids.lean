import Verif.Spec.Ids
import Verif.Spec.Include
import Verif.Lemmas.Include
import Mathlib.Data.List.Nodup

/-!
# C46: ids under every schedule

`given`, `createdBy` and `World.shared` are in `Spec/Ids.lean`; executions are in `Model/Ids.lean`.
-/

namespace Over

/-! ## Counting -/

theorem given_append (a b : List Event) : given (a ++ b) = given a ++ given b := by
  simp [given, List.filterMap_append]

/-- One step: the id given out, if any, is the value of the counter. -/
theorem Step.counts {w w' : World} {e : Event} (h : Step w e w') :
    (given [e] = [] ∧ w'.counter = w.counter) ∨ (given [e] = [w.counter] ∧ w'.counter = (w.counter + 1) % idRange) := by
  cases h with
  | create t => exact .inr ⟨rfl, rfl⟩
  | claim t k hk => exact .inl ⟨rfl, rfl⟩
  | make t k hk => exact .inr ⟨rfl, rfl⟩
  | publish t i k hk => exact .inl ⟨rfl, rfl⟩
  | look t i k hk => exact .inl ⟨rfl, rfl⟩

theorem Exec.counts {w w' : World} {es : List Event} (h : Exec w es w') : ∀ c, w.counter = c % idRange →
    given es = (List.range' c (given es).length).map (· % idRange) ∧ w'.counter = (c + (given es).length) % idRange := by
  induction h with
  | nil w => intro c hc; exact ⟨rfl, by simpa [given] using hc⟩
  | cons hs _ ih =>
    rename_i w w1 w2 e es _
    intro c hc
    have e0 : given (e :: es) = given [e] ++ given es := given_append [e] es
    rcases hs.counts with ⟨h1, h2⟩ | ⟨h1, h2⟩
    · rw [e0, h1]
      exact ih c (h2.trans hc)
    · obtain ⟨h3, h4⟩ := ih (c + 1) (by rw [h2, hc, Nat.mod_add_mod])
      rw [e0, h1, hc]
      refine ⟨?_, ?_⟩
      · simp only [List.singleton_append, List.length_cons, List.range'_succ, List.map_cons]
        rw [← h3]
      · rw [h4]
        simp only [List.singleton_append, List.length_cons]
        congr 1
        omega

theorem range_mod (n : Nat) (h : n ≤ idRange) : (List.range n).map (· % idRange) = List.range n := by
  conv_rhs => rw [← List.map_id (List.range n)]
  refine List.map_congr_left fun i hi => ?_
  exact Nat.mod_eq_of_lt (Nat.lt_of_lt_of_le (List.mem_range.1 hi) h)

/-- C46: whatever the schedule, the ids are given out in the order 0, 1, 2, … (modulo 2^64). -/
theorem c46_incremental (es : List Event) (w : World) (h : Exec .init es w) :
    given es = (List.range (given es).length).map (· % 2 ^ 64) := by
  have := (h.counts 0 rfl).1
  rwa [← List.range_eq_range'] at this

theorem given_range {es : List Event} {w : World} (h : Exec .init es w) (hn : (given es).length ≤ 2 ^ 64) :
    given es = List.range (given es).length := by
  have := c46_incremental es w h
  rwa [show (2 : Nat) ^ 64 = idRange from rfl, range_mod _ hn] at this

/-- C46: as long as at most 2^64 ids have been given out, no id has been given out twice. -/
theorem c46_unique (es : List Event) (w : World) (h : Exec .init es w) (hn : (given es).length ≤ 2 ^ 64) :
    (given es).Nodup := by
  rw [given_range h hn]
  exact List.nodup_range

/-- C46: that is sharp: with more ids, some id has been given out twice. -/
theorem c46_sharp (es : List Event) (w : World) (h : Exec .init es w) (hn : 2 ^ 64 < (given es).length) :
    ¬ (given es).Nodup := by
  rw [c46_incremental es w h]
  intro hnd
  have h1 := List.inj_on_of_nodup_map hnd (x := 0) (List.mem_range.2 (by omega)) (y := 2 ^ 64) (List.mem_range.2 hn) (by simp)
  simp at h1

theorem createdBy_sublist (t : Nat) (es : List Event) : (createdBy t es).Sublist (given es) := by
  induction es with
  | nil => exact .slnil
  | cons e es ih =>
    have e1 : given (e :: es) = given [e] ++ given es := given_append [e] es
    have e2 : createdBy t (e :: es) = createdBy t [e] ++ createdBy t es := by
      unfold createdBy
      rw [← List.filterMap_append]
      rfl
    rw [e1, e2]
    refine List.Sublist.append ?_ ih
    cases e with
    | create t' i =>
      by_cases ht : t' = t
      · simp [createdBy, given, ht]
      · simp [createdBy, given, ht]
    | make t' k i => simp [createdBy, given]
    | look t' k i => simp [createdBy, given]
    | internal => simp [createdBy, given]

/-- C46: the ids of the containers created by one thread increase. -/
theorem c46_thread_increasing (es : List Event) (w : World) (h : Exec .init es w) (hn : (given es).length ≤ 2 ^ 64)
    (t : Nat) : (createdBy t es).Pairwise (· < ·) := by
  refine List.Pairwise.sublist (createdBy_sublist t es) ?_
  rw [given_range h hn]
  exact List.pairwise_lt_range

/-! ## Sentinels -/

/-- The id of the sentinel is settled. -/
def World.settled (w : World) (k : IncKind) (i : Nat) : Prop := (∃ t, w.lazy k = .taken t i) ∨ w.lazy k = .ready i

theorem shared_keyword (w : World) (k : IncKind) (i : Nat) : w.shared.keyword k = some i ↔ w.settled k i := by
  unfold World.settled
  have : w.shared.keyword k = match w.lazy k with
      | .unset => none | .busy _ => none | .taken _ i => some i | .ready i => some i := by cases k <;> rfl
  rw [this]
  cases w.lazy k <;> simp

/-- What the events so far say about the sentinels. -/
structure Told (es : List Event) (w : World) : Prop where
  made : ∀ k i, w.settled k i ↔ ∃ t, Event.make t k i ∈ es
  seen : ∀ t k i, Event.look t k i ∈ es → w.settled k i

theorem Told.step {es : List Event} {w w' : World} {e : Event} (h : Told es w) (hs : Step w e w') : Told (es ++ [e]) w' := by
  cases hs with
  | create t =>
    refine ⟨fun k i => ?_, fun t' k i hm => ?_⟩
    · rw [show (World.bump w).settled k i ↔ w.settled k i from Iff.rfl, h.made]
      simp
    · exact h.seen t' k i (by simpa using hm)
  | claim t k0 hk =>
    have key : ∀ k i, ({ w with lazy := Function.update w.lazy k0 (.busy t) } : World).settled k i ↔ w.settled k i := by
      intro k i
      unfold World.settled
      by_cases hkk : k = k0
      · subst hkk; simp [hk]
      · simp [Function.update_of_ne hkk]
    refine ⟨fun k i => ?_, fun t' k i hm => ?_⟩
    · rw [key, h.made]; simp
    · rw [key]; exact h.seen t' k i (by simpa using hm)
  | make t k0 hk =>
    have key : ∀ k i, ({ w.bump with lazy := Function.update w.lazy k0 (.taken t w.counter) } : World).settled k i ↔
        w.settled k i ∨ k = k0 ∧ i = w.counter := by
      intro k i
      unfold World.settled
      by_cases hkk : k = k0
      · subst hkk
        simp only [Function.update_self, hk, Lazy.taken.injEq, reduceCtorEq, or_false, exists_const, false_or, true_and]
        constructor
        · rintro ⟨_, _, h⟩; exact h.symm
        · rintro rfl; exact ⟨t, rfl, rfl⟩
      · simp [hkk]
    refine ⟨fun k i => ?_, fun t' k i hm => ?_⟩
    · rw [key, h.made]
      constructor
      · rintro (⟨t', h1⟩ | ⟨rfl, rfl⟩)
        · exact ⟨t', by simp [h1]⟩
        · exact ⟨t, by simp⟩
      · rintro ⟨t', h1⟩
        simp only [List.mem_append, List.mem_singleton, Event.make.injEq] at h1
        rcases h1 with h1 | ⟨-, h1, h2⟩
        · exact .inl ⟨t', h1⟩
        · exact .inr ⟨h1, h2⟩
    · rw [key]; exact .inl (h.seen t' k i (by simpa using hm))
  | publish t j k0 hk =>
    have key : ∀ k i, ({ w with lazy := Function.update w.lazy k0 (.ready j) } : World).settled k i ↔ w.settled k i := by
      intro k i
      unfold World.settled
      by_cases hkk : k = k0
      · subst hkk; simp [hk]
      · simp [Function.update_of_ne hkk]
    refine ⟨fun k i => ?_, fun t' k i hm => ?_⟩
    · rw [key, h.made]; simp
    · rw [key]; exact h.seen t' k i (by simpa using hm)
  | look t j k0 hk =>
    refine ⟨fun k i => ?_, fun t' k i hm => ?_⟩
    · rw [h.made]; simp
    · simp only [List.mem_append, List.mem_singleton, Event.look.injEq] at hm
      rcases hm with hm | ⟨-, rfl, rfl⟩
      · exact h.seen t' k i hm
      · exact .inr hk

theorem Exec.told {w w' : World} {es : List Event} (h : Exec w es w') : ∀ es0, Told es0 w → Told (es0 ++ es) w' := by
  induction h with
  | nil w => intro es0 h; simpa using h
  | cons hs _ ih =>
    intro es0 h0
    have := ih _ (h0.step hs)
    simpa using this

theorem told_init : Told [] .init := by
  refine ⟨fun k i => ?_, fun t k i h => by simp at h⟩
  simp [World.settled, World.init]

/-- An id is given out by one event only. -/
theorem given_inj {es : List Event} (h : (given es).Nodup) {a b : Event} (ha : a ∈ es) (hb : b ∈ es) {i : Nat}
    (h1 : i ∈ given [a]) (h2 : i ∈ given [b]) : a = b := by
  induction es with
  | nil => simp at ha
  | cons e es ih =>
    rw [show given (e :: es) = given [e] ++ given es from given_append [e] es] at h
    obtain ⟨-, hn, hd⟩ := List.nodup_append.1 h
    have key : ∀ c ∈ es, i ∈ given [c] → i ∈ given es := by
      intro c hc hi
      obtain ⟨s, t, rfl⟩ := List.append_of_mem hc
      rw [given_append, show given (c :: t) = given [c] ++ given t from given_append [c] t]
      simp [hi]
    rcases List.mem_cons.1 ha with ea | ha' <;> rcases List.mem_cons.1 hb with eb | hb'
    · rw [ea, eb]
    · exact absurd rfl (hd i (ea ▸ h1) i (key _ hb' h2))
    · exact absurd rfl (hd i (eb ▸ h2) i (key _ ha' h1))
    · exact ih hn ha' hb'

/-- C46: all threads see the same four keyword objects, whichever thread comes first; they are different from each
other and from every container. -/
theorem c46_keywords (es : List Event) (w : World) (h : Exec .init es w) (hn : (given es).length ≤ 2 ^ 64)
    (t t' : Nat) (k k' : IncKind) (i i' : Nat) (h1 : .look t k i ∈ es) (h2 : .look t' k' i' ∈ es) :
    (i = i' ↔ k = k') ∧ ∀ t'' j, .create t'' j ∈ es → j ≠ i := by
  have ht : Told es w := by simpa using h.told [] told_init
  have hu := c46_unique es w h hn
  have s1 := ht.seen t k i h1
  have s2 := ht.seen t' k' i' h2
  obtain ⟨t1, m1⟩ := (ht.made k i).1 s1
  obtain ⟨t2, m2⟩ := (ht.made k' i').1 s2
  refine ⟨⟨?_, ?_⟩, ?_⟩
  · rintro rfl
    have := given_inj hu m1 m2 (i := i) (by simp [given]) (by simp [given])
    cases this
    rfl
  · rintro rfl
    unfold World.settled at s1 s2
    rcases s1 with ⟨_, s1⟩ | s1 <;> rcases s2 with ⟨_, s2⟩ | s2 <;> rw [s1] at s2 <;> cases s2 <;> rfl
  · rintro t'' j hj rfl
    have := given_inj hu m1 hj (i := j) (by simp [given]) (by simp [given])
    cases this

/-! ## The view of one thread -/

theorem Step.keeps {w w' : World} {e : Event} (h : Step w e w') {k : IncKind} {i : Nat} (hk : w.settled k i) :
    w'.settled k i := by
  cases h with
  | create t => exact hk
  | look t j k0 h0 => exact hk
  | claim t k0 h0 =>
    have : k ≠ k0 := by rintro rfl; unfold World.settled at hk; simp [h0] at hk
    simpa [World.settled, Function.update_of_ne this] using hk
  | make t k0 h0 =>
    have : k ≠ k0 := by rintro rfl; unfold World.settled at hk; simp [h0] at hk
    simpa [World.settled, Function.update_of_ne this] using hk
  | publish t j k0 h0 =>
    by_cases hkk : k = k0
    · subst hkk
      unfold World.settled at hk ⊢
      simp only [h0, Lazy.taken.injEq, reduceCtorEq, or_false] at hk
      obtain ⟨_, -, rfl⟩ := hk
      simp
    · simpa [World.settled, Function.update_of_ne hkk] using hk

theorem Exec.keeps {w w' : World} {es : List Event} (h : Exec w es w') {k : IncKind} {i : Nat} (hk : w.settled k i) :
    w'.settled k i := by
  induction h with
  | nil => exact hk
  | cons hs _ ih => exact ih (hs.keeps hk)

theorem Exec.append {w w' w'' : World} {es es' : List Event} (h : Exec w es w') (h' : Exec w' es' w'') :
    Exec w (es ++ es') w'' := by
  induction h with
  | nil => exact h'
  | cons hs _ ih => exact .cons hs (ih h')

/-- C46: the state of the process is always as the parser expects it (`Fine`), and between any two moments it changes
only in the way that is allowed to the other threads in all statements about parsing (`Rt.moveOn`). -/
theorem c46_moves_on (es es' : List Event) (w w' : World) (h : Exec .init es w) (h' : Exec w es' w')
    (hn : (given (es ++ es')).length < 2 ^ 64) : w.shared.Fine ∧ w.shared.MovesOn w'.shared := by
  have hl : (given (es ++ es')).length = (given es).length + (given es').length := by rw [given_append]; simp
  have hall := h.append h'
  have c1 : w.counter = (given es).length := by
    rw [(h.counts 0 rfl).2, Nat.zero_add]
    exact Nat.mod_eq_of_lt (by unfold idRange; omega)
  have c2 : w'.counter = (given (es ++ es')).length := by
    rw [(hall.counts 0 rfl).2, Nat.zero_add]
    exact Nat.mod_eq_of_lt (by unfold idRange; omega)
  have t1 : Told es w := by simpa using h.told [] told_init
  have t2 : Told (es ++ es') w' := by simpa using hall.told [] told_init
  have hu := c46_unique _ _ hall (by omega)
  have g1 := given_range h (by omega)
  have g2 := given_range hall (by omega)
  have gm : ∀ {t k i} {l : List Event}, Event.make t k i ∈ l → i ∈ given l := by
    intro t k i l hm
    exact List.mem_filterMap.2 ⟨_, hm, rfl⟩
  have fine : ∀ {l : List Event} {v : World}, Told l v → (given l).Nodup → given l = List.range (given l).length →
      v.counter = (given l).length → v.shared.Fine := by
    intro l v tl hnd hr hc k i hk
    obtain ⟨t, hm⟩ := (tl.made k i).1 ((shared_keyword v k i).1 hk)
    refine ⟨?_, ?_⟩
    · have := gm hm
      rw [hr] at this
      have := List.mem_range.1 this
      show i < v.counter
      omega
    · intro k' hk'
      obtain ⟨t', hm'⟩ := (tl.made k' i).1 ((shared_keyword v k' i).1 hk')
      have := given_inj hnd hm hm' (i := i) (by simp [given]) (by simp [given])
      cases this
      rfl
  have f1 := fine t1 (c46_unique _ _ h (by omega)) g1 c1
  have f2 := fine t2 hu g2 c2
  refine ⟨f1, ?_, ?_, ?_⟩
  · show w.counter ≤ w'.counter
    omega
  · intro k i hk
    exact (shared_keyword _ _ _).2 (h'.keeps ((shared_keyword _ _ _).1 hk))
  · intro k i hk hk'
    obtain ⟨h3, h4⟩ := f2 k i hk'
    refine ⟨?_, h3, h4⟩
    obtain ⟨t, hm⟩ := (t2.made k i).1 ((shared_keyword _ _ _).1 hk')
    have hnot : ∀ t, Event.make t k i ∉ es := by
      intro t hm
      have := (shared_keyword _ _ _).2 ((t1.made k i).2 ⟨t, hm⟩)
      rw [hk] at this
      cases this
    rcases List.mem_append.1 hm with hm | hm
    · exact absurd hm (hnot t)
    · have h5 : i ∈ given es' := gm hm
      have h6 : i ∉ given es := by
        intro h6
        rw [given_append] at hu
        exact absurd rfl ((List.nodup_append.1 hu).2.2 i h6 i h5)
      rw [g1] at h6
      have : ¬ i < (given es).length := fun hlt => h6 (List.mem_range.2 hlt)
      show w.counter ≤ i
      omega

/-- C46: the steps of the parsing thread itself are those of the parser model (`genId`, `forceSentinel`). -/
theorem c46_own_steps (w w' : World) (hc : w.counter + 1 < 2 ^ 64) :
    (∀ t i, Step w (.create t i) w' → i = w.shared.curId ∧
      w'.shared = { w.shared with curId := w.shared.curId + 1 }) ∧
    (∀ t k i, Step w (.make t k i) w' → w.shared.keyword k = none ∧ i = w.shared.curId ∧
      w'.shared.curId = w.shared.curId + 1 ∧ w'.shared.keyword k = some i ∧
      ∀ k', k' ≠ k → w'.shared.keyword k' = w.shared.keyword k') ∧
    (∀ t k i, Step w (.look t k i) w' → w.shared.keyword k = some i ∧ w'.shared = w.shared) := by
  have hm : (w.counter + 1) % idRange = w.counter + 1 := Nat.mod_eq_of_lt hc
  refine ⟨?_, ?_, ?_⟩
  · intro t i h
    cases h
    refine ⟨rfl, ?_⟩
    simp only [World.shared, World.bump, hm]
  · intro t k i h
    cases h with
    | make _ _ hk =>
    refine ⟨?_, rfl, ?_, ?_, ?_⟩
    · cases hs : w.shared.keyword k with
      | none => rfl
      | some j => have := (shared_keyword _ _ _).1 hs; simp [World.settled, hk] at this
    · simp only [World.shared, World.bump, hm]
    · rw [shared_keyword]; exact .inl ⟨t, by simp⟩
    · intro k' hk'
      have : ∀ j, ({ w.bump with lazy := Function.update w.lazy k (.taken t w.counter) } : World).shared.keyword k' =
          some j ↔ w.shared.keyword k' = some j := by
        intro j
        rw [shared_keyword, shared_keyword]
        simp [World.settled, Function.update_of_ne hk']
      exact Option.ext fun j => this j
  · intro t k i h
    cases h with
    | look _ _ _ hk => exact ⟨(shared_keyword _ _ _).2 (.inr hk), rfl⟩

/-- An execution: thread 0 creates a container, thread 1 starts to make the keyword object `Str`, thread 0 creates
another container in between, both read the keyword object. -/
example : ∃ w, Exec .init [.create 0 0, .internal, .create 0 1, .make 1 .str 2, .create 0 3, .internal,
    .look 0 .str 2, .look 1 .str 2] w :=
  ⟨_, .cons (.create _ 0) (.cons (.claim _ 1 .str rfl) (.cons (.create _ 0) (.cons (.make _ 1 .str rfl)
    (.cons (.create _ 0) (.cons (.publish _ 1 2 .str rfl) (.cons (.look _ 0 2 .str rfl)
    (.cons (.look _ 1 2 .str rfl) (.nil _))))))))⟩

end Over
