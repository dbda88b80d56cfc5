import Verif.Lemmas.EvalInv
import Verif.Lemmas.Nested

/-! # What evaluation does to the globals -/

namespace Over

theorem StrMap.get_insert_self {α : Type} (m : StrMap α) (k : Str) (v : α) :
    StrMap.get (StrMap.insert m k v) k = some v := by simp [StrMap.get, StrMap.insert]

theorem StrMap.get_insert_ne {α : Type} (m : StrMap α) {k k' : Str} (v : α) (h : k' ≠ k) :
    StrMap.get (StrMap.insert m k v) k' = StrMap.get m k' := by
  have : (k == k') = false := by simpa using fun h' => h h'.symm
  simp [StrMap.get, StrMap.insert, this]

theorem keywordId_globals (k : IncKind) (st st' : ESt) (i : Nat) (h : EM.keywordId k st = .ok (i, st')) :
    st'.globals = st.globals := by
  unfold EM.keywordId at h
  simp only [] at h
  split at h
  · cases h; rfl
  · cases h; rfl

/-- A relation between the globals before and after. -/
def globalsInv (R : StrMap Value → StrMap Value → Prop) (defs : Str → Prop) (refl : ∀ m, R m m)
    (trans : ∀ {a b c}, R a b → R b c → R a c)
    (set : ∀ {a b g v}, defs g → StrMap.get a g = none → R a b → R a (StrMap.insert b g v)) :
    EvalInv Unit defs where
  I _ := True
  R σ τ := R σ.1.globals τ.1.globals
  V _ _ := True
  refl σ := refl _
  trans h1 h2 := trans h1 h2
  mono _ _ _ _ := trivial
  null _ := trivial
  bool _ _ := trivial
  int _ _ := trivial
  frac _ _ := trivial
  str _ _ := trivial
  ofArr _ _ _ _ := trivial
  ofTup _ _ _ _ := trivial
  ofObj _ _ _ _ := trivial
  newArr _ _ _ _ := ⟨(), trivial, refl _, trivial⟩
  newTup _ _ _ _ := ⟨(), trivial, refl _, trivial⟩
  newObj _ _ _ _ _ := ⟨(), trivial, refl _, trivial⟩
  keyword {σ} k _ := by
    intro i st' h
    refine ⟨(), trivial, ?_, trivial⟩
    show R σ.1.globals st'.globals
    rw [keywordId_globals k _ _ _ h]
    exact refl _
  global _ _ := trivial
  setGlobal hd _ hn _ hr _ := ⟨trivial, set hd hn hr, fun _ _ => trivial⟩

section
variable [Unicode]

/-- The action neither reads nor changes the globals. -/
def Oblivious {α : Type} (m : EM α) : Prop := ∀ (st : ESt) (G : StrMap Value),
  (∀ a st', m st = .ok (a, st') → st'.globals = st.globals ∧
    m { st with globals := G } = .ok (a, { st' with globals := G })) ∧
  ∀ e, m st = .error e → m { st with globals := G } = .error e

omit [Unicode] in
theorem Oblivious.ite {α : Type} {c : Prop} [Decidable c] {a b : EM α} (h1 : c → Oblivious a) (h2 : ¬ c → Oblivious b) :
    Oblivious (if c then a else b) := by
  by_cases h : c
  · rw [if_pos h]; exact h1 h
  · rw [if_neg h]; exact h2 h

omit [Unicode] in
theorem Oblivious.dite {α : Type} {c : Prop} {_ : Decidable c} {a : c → EM α} {b : ¬ c → EM α}
    (h1 : ∀ h, Oblivious (a h)) (h2 : ∀ h, Oblivious (b h)) : Oblivious (dite c a b) := by
  by_cases h : c
  · rw [dif_pos h]; exact h1 h
  · rw [dif_neg h]; exact h2 h

omit [Unicode] in
theorem Oblivious.pure {α : Type} (a : α) : Oblivious (pure a : EM α) := by
  intro st G
  refine ⟨?_, ?_⟩
  · intro b st' h; cases h; exact ⟨rfl, rfl⟩
  · intro e h; cases h

omit [Unicode] in
theorem Oblivious.error {α : Type} (e : SemErr) : Oblivious (fun _ => .error e : EM α) := by
  intro st G
  refine ⟨?_, ?_⟩
  · intro b st' h; cases h
  · intro e h; cases h; rfl

omit [Unicode] in
theorem Oblivious.own {α : Type} (m : EM α) : Oblivious (EM.ownGlobals m) := by
  intro st G
  unfold EM.ownGlobals
  simp only []
  cases m { st with globals := [] } with
  | error e =>
    refine ⟨?_, ?_⟩
    · intro b st' h; cases h
    · intro e h; cases h; rfl
  | ok x =>
    refine ⟨?_, ?_⟩
    · intro b st' h; cases h; exact ⟨rfl, rfl⟩
    · intro e h; cases h

theorem loadN_oblivious (fs : FS) (n : Nat) (stack : List Str) (kind : IncKind) (path : Str) :
    Oblivious (loadN fs n stack kind path) := by
  cases n with
  | zero => exact Oblivious.error _
  | succ n =>
    simp only [loadN]
    cases fs.read path with
    | error m => exact Oblivious.error _
    | ok text =>
      cases kind with
      | str => exact Oblivious.pure _
      | obj => exact .dite (fun _ => .own _) (fun _ => .error _)
      | arr => exact .dite (fun _ => .own _) (fun _ => .error _)
      | tup => exact .dite (fun _ => .own _) (fun _ => .error _)

/-- Including a file neither reads nor changes the globals of the including file. -/
theorem evalInclude_oblivious (fs : FS) (n : Nat) (file : Option Str) (stack : List Str) (kind : IncKind) (p : Str) :
    Oblivious (evalInclude fs file stack (loadN fs n) kind p) := by
  unfold evalInclude
  extract_lets path
  generalize path = path
  cases fs.resolve path with
  | none => exact .error _
  | some full =>
    refine .ite (fun _ => .error _) (fun _ => .ite (fun _ => .error _) (fun _ => ?_))
    intro st G
    simp only []
    cases StrMap.get st.cache full with
    | some v =>
      refine ⟨?_, ?_⟩
      · intro b st' h; cases h; exact ⟨rfl, rfl⟩
      · intro e h; cases h
    | none =>
      simp only []
      obtain ⟨h1, h2⟩ := loadN_oblivious fs n (full :: stack) kind path st G
      cases hl : loadN fs n (full :: stack) kind path st with
      | error e =>
        rw [h2 e hl]
        refine ⟨?_, ?_⟩
        · intro b st' h; cases h
        · intro e h; cases h; rfl
      | ok x =>
        obtain ⟨v, st1⟩ := x
        obtain ⟨h3, h4⟩ := h1 v st1 hl
        rw [h4]
        refine ⟨?_, ?_⟩
        · intro b st' h; cases h; exact ⟨h3, rfl⟩
        · intro e h; cases h

theorem evalInclude_globals {fs : FS} {n : Nat} {file : Option Str} {stack : List Str} {kind : IncKind} {p : Str}
    {st st' : ESt} {v : Value} (h : evalInclude fs file stack (loadN fs n) kind p st = .ok (v, st')) :
    st'.globals = st.globals :=
  ((evalInclude_oblivious fs n file stack kind p st []).1 v st' h).1

/-- A global that is defined keeps its value. -/
theorem globals_keep {fs : FS} {n : Nat} {file : Option Str} {stack : List Str} {fds : List Field} {d : Nat}
    {ps : List Pair} {par : Option Obj} {st st' : ESt} {b : List Pair × Option Obj} {g : Str} {v : Value}
    (h : evalFields fs file stack (loadN fs n) fds d ps par st = .ok (b, st'))
    (hg : StrMap.get st.globals g = some v) : StrMap.get st'.globals g = some v := by
  let E := globalsInv (fun a b => StrMap.get a g = some v → StrMap.get b g = some v) (fun _ => True)
    (fun _ h => h) (fun h1 h2 h => h2 (h1 h)) (by
      intro a b g' v' _ hn hr ha
      have : g ≠ g' := by rintro rfl; rw [hn] at ha; cases ha
      rw [StrMap.get_insert_ne _ _ this]
      exact hr ha)
  have hinc : E.Includes fs file stack (loadN fs n) := by
    intro kind p σ _ w st2 hw
    refine ⟨(), trivial, ?_, trivial⟩
    intro h
    show StrMap.get st2.globals g = some v
    rw [evalInclude_globals hw]
    exact h
  obtain ⟨_, -, h2, -⟩ := E.evalFields_good hinc fds d ps par (st, ()) trivial (fun _ _ => trivial)
    (fun _ _ => trivial) (fun _ _ => trivial) _ _ h
  exact h2 hg

/-- A global that is not defined stays undefined. -/
theorem globals_absent {fs : FS} {n : Nat} {file : Option Str} {stack : List Str} {fds : List Field} {d : Nat}
    {ps : List Pair} {par : Option Obj} {st st' : ESt} {b : List Pair × Option Obj} {g : Str}
    (h : evalFields fs file stack (loadN fs n) fds d ps par st = .ok (b, st'))
    (hn : g ∉ Field.defsL fds) (hg : StrMap.get st.globals g = none) : StrMap.get st'.globals g = none := by
  let E := globalsInv (fun a b => StrMap.get a g = none → StrMap.get b g = none) (fun g' => g' ≠ g)
    (fun _ h => h) (fun h1 h2 h => h2 (h1 h)) (by
      intro a b g' v' hne _ hr ha
      rw [StrMap.get_insert_ne _ _ hne.symm]
      exact hr ha)
  have hinc : E.Includes fs file stack (loadN fs n) := by
    intro kind p σ _ w st2 hw
    refine ⟨(), trivial, ?_, trivial⟩
    intro h
    show StrMap.get st2.globals g = none
    rw [evalInclude_globals hw]
    exact h
  obtain ⟨_, -, h2, -⟩ := E.evalFields_good hinc fds d ps par (st, ()) trivial (fun _ _ => trivial)
    (fun _ _ => trivial) (fun g' hg' h => hn (h ▸ hg')) _ _ h
  exact h2 hg

end

end Over
