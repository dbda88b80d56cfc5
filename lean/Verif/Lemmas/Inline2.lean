import Verif.Lemmas.Inline

/-! # Replacing names by their definitions: the two runs -/

namespace Over

/-- Both undefined, or both defined and alike. -/
def LikeGet (S : IncKind → Nat) (x y : Option Value) : Prop := (x = none ∧ y = none) ∨ ∃ v v', x = some v ∧ y = some v' ∧ Like S v v'

theorem LikeGet.refl {S : IncKind → Nat} (x : Option Value) : LikeGet S x x := by
  cases x
  · exact .inl ⟨rfl, rfl⟩
  · exact .inr ⟨_, _, rfl, rfl, rfl⟩

/-- The states of both runs: the same globals (but for those in `U`) and files, up to ids. -/
structure RelSt (S : IncKind → Nat) (U : Str → Prop) (st st' : ESt) : Prop where
  globals : ∀ x, ¬ U x → LikeGet S (StrMap.get st.globals x) (StrMap.get st'.globals x)
  cache : ∀ x, LikeGet S (StrMap.get st.cache x) (StrMap.get st'.cache x)
  warm : Warm S st.rt
  warm' : Warm S st'.rt

theorem RelSt.rt {S : IncKind → Nat} {U : Str → Prop} {st st' : ESt} (h : RelSt S U st st') {r r' : Rt} (w : Warm S r) (w' : Warm S r') :
    RelSt S U { st with rt := r } { st' with rt := r' } := ⟨h.globals, h.cache, w, w'⟩

section
variable {S : IncKind → Nat} {D : Option Str → Prop} {U : Str → Prop} {α α' β β' : Type}

/-- How the runs end: the second one finds the nesting too deep (in a file in `D`), or both end alike; nothing known in `st0` is lost. -/
def SimRes (S : IncKind → Nat) (D : Option Str → Prop) (U : Str → Prop) (st0 : ESt) (Q : α → β → Prop) (x : Except SemErr (α × ESt)) (y : Except SemErr (β × ESt)) : Prop :=
  TooDeep D y ∨ (∃ e, x = .error e ∧ y = .error e) ∨
    ∃ a a' st1 st1', x = .ok (a, st1) ∧ y = .ok (a', st1') ∧ Q a a' ∧ RelSt S U st1 st1' ∧ Later st0 st1'

theorem SimRes.later {st0 st1 : ESt} {Q : α → β → Prop} {x : Except SemErr (α × ESt)} {y : Except SemErr (β × ESt)} (h : SimRes S D U st1 Q x y)
    (hl : Later st0 st1) : SimRes S D U st0 Q x y := by
  rcases h with h | h | ⟨a, a', s, s', h1, h2, h3, h4, h5⟩
  · exact .inl h
  · exact .inr (.inl h)
  · exact .inr (.inr ⟨a, a', s, s', h1, h2, h3, h4, hl.trans h5⟩)

/-- The runs of `m` and `m'` correspond where `K` holds. -/
def SimBy (S : IncKind → Nat) (D : Option Str → Prop) (U : Str → Prop) (K : ESt → Prop) (Q : α → β → Prop) (m : EM α) (m' : EM β) : Prop :=
  ∀ st st', RelSt S U st st' → K st' → SimRes S D U st' Q (m st) (m' st')

/-- What holds stays true. -/
def Lasting (K : ESt → Prop) : Prop := ∀ st st', K st → Later st st' → K st'

theorem SimBy.bind {K : ESt → Prop} (hK : Lasting K) {Q : α → α' → Prop} {R : β → β' → Prop} {m : EM α} {m' : EM α'} {k : α → EM β}
    {k' : α' → EM β'} (h : SimBy S D U K Q m m') (hk : ∀ a a', Q a a' → SimBy S D U K R (k a) (k' a')) : SimBy S D U K R (m >>= k) (m' >>= k') := by
  intro st st' hr hks
  show SimRes S D U st' R (EM.bind m k st) (EM.bind m' k' st')
  unfold EM.bind
  rcases h st st' hr hks with ⟨f, hf, h1⟩ | ⟨e, h1, h2⟩ | ⟨a, a', st1, st1', h1, h2, q, h3, h4⟩
  · rw [h1]; exact .inl ⟨f, hf, rfl⟩
  · rw [h1, h2]; exact .inr (.inl ⟨e, rfl, rfl⟩)
  · rw [h1, h2]; exact (hk a a' q st1 st1' h3 (hK _ _ hks h4)).later h4

theorem SimBy.of_local {K : ESt → Prop} {Q : α → β → Prop} {m : EM α} {m' : EM β} (h : Local S Q m m') : SimBy S D U K Q m m' := by
  intro st st' hr _
  rcases h st st' hr.warm hr.warm' with ⟨e, h1, h2⟩ | ⟨a, a', r, r', h1, h2, q, w, w'⟩
  · exact .inr (.inl ⟨e, h1, h2⟩)
  · exact .inr (.inr ⟨a, a', _, _, h1, h2, q, hr.rt w w', (Later.refl _).rt r'⟩)

theorem SimBy.ite {K : ESt → Prop} {Q : α → β → Prop} {c c' : Prop} [Decidable c] [Decidable c'] {a b : EM α} {a' b' : EM β} (hc : c ↔ c')
    (h1 : SimBy S D U K Q a a') (h2 : SimBy S D U K Q b b') : SimBy S D U K Q (if c then a else b) (if c' then a' else b') := by
  by_cases h : c
  · rw [if_pos h, if_pos (hc.1 h)]; exact h1
  · rw [if_neg h, if_neg (fun x => h (hc.2 x))]; exact h2

theorem SimBy.fail {K : ESt → Prop} {Q : α → β → Prop} (file : Option Str) (k : SemKind) : SimBy S D U K Q (EM.fail file k) (EM.fail file k) :=
  .of_local (.fail _ _)

theorem SimBy.weaken {K K' : ESt → Prop} (hk : ∀ st, K st → K' st) {Q : α → β → Prop} {m : EM α} {m' : EM β} (h : SimBy S D U K' Q m m') :
    SimBy S D U K Q m m' := fun st st' hr hks => h st st' hr (hk _ hks)

theorem SimBy.depthCheck {K : ESt → Prop} {file : Option Str} {d d' : Nat} (h : d ≤ d') (hD : d = d' ∨ D file) :
    SimBy S D U K (fun _ _ => True) (depthCheck file d) (depthCheck file d') := by
  intro st st' hr _
  unfold Over.depthCheck
  by_cases h1 : d' > 64
  · rcases hD with rfl | hD
    · rw [if_pos h1]; exact .inr (.inl ⟨_, rfl, rfl⟩)
    · rw [if_pos h1]; exact .inl ⟨file, hD, rfl⟩
  · rw [if_neg h1, if_neg (by omega)]
    exact .inr (.inr ⟨(), (), st, st', rfl, rfl, trivial, hr, Later.refl _⟩)

variable {fs : FS} {file : Option Str} {stack : List Str} {load : Loader}

theorem evalName_sim {K : ESt → Prop} {ps ps' : List Pair} (hp : LikeP S ps ps') {x : Str} (hx : ¬ U x) :
    SimBy S D U K (Like S) (evalName file ps x) (evalName file ps' x) := by
  by_cases h : x.head? = some '@'
  · by_cases ha : x = c!"@"
    · subst ha; exact .fail _ _
    rw [evalName_at h ha, evalName_at h ha]
    intro st st' hr _
    unfold evalGlobal
    rcases hr.globals x hx with ⟨h1, h2⟩ | ⟨v, v', h1, h2, h3⟩
    · rw [h1, h2]; exact .inr (.inl ⟨_, rfl, rfl⟩)
    · rw [h1, h2]; exact .inr (.inr ⟨v, v', st, st', rfl, rfl, h3, hr, Later.refl _⟩)
  · exact .of_local (evalName_local h hp)

/-- Reading files in both runs. -/
structure LoadSim (S : IncKind → Nat) (load : Loader) : Prop where
  sim : ∀ (U : Str → Prop) stack kind path, SimBy S (fun _ => False) U (fun _ => True) (Like S) (load stack kind path) (load stack kind path)
  globals : ∀ stack kind path st v st1, load stack kind path st = .ok (v, st1) → st1.globals = st.globals

theorem LoadSim.later (h : LoadSim S load) : LoadLater S load := by
  intro stack kind path st v st1 w e
  have hr : RelSt S (fun _ => False) st st := ⟨fun _ _ => LikeGet.refl _, fun _ => LikeGet.refl _, w, w⟩
  rcases h.sim _ stack kind path st st hr trivial with ⟨f, hf, h1⟩ | ⟨x, h1, -⟩ | ⟨a, a', s, s', h1, h2, h3, h4, h5⟩
  · exact hf.elim
  · rw [h1] at e; cases e
  · rw [h2] at e; have g := h.globals _ _ _ _ _ _ h2; cases e; exact ⟨h4.warm', h5, g⟩

theorem LikeGet.insert {m m' : StrMap Value} {v v' : Value} (hv : Like S v v') (k x : Str) (h : x ≠ k → LikeGet S (StrMap.get m x) (StrMap.get m' x)) :
    LikeGet S (StrMap.get (StrMap.insert m k v) x) (StrMap.get (StrMap.insert m' k v') x) := by
  by_cases e : x = k
  · subst e
    rw [StrMap.get_insert_self, StrMap.get_insert_self]
    exact .inr ⟨_, _, rfl, rfl, hv⟩
  · rw [StrMap.get_insert_ne _ _ e, StrMap.get_insert_ne _ _ e]; exact h e

theorem evalInclude_sim {K : ESt → Prop} (hl : LoadSim S load) (kind : IncKind) (p : Str) :
    SimBy S D U K (Like S) (evalInclude fs file stack load kind p) (evalInclude fs file stack load kind p) := by
  unfold evalInclude
  extract_lets path
  clear_value path
  cases fs.resolve path with
  | none => exact .fail _ _
  | some full =>
    dsimp only
    refine .ite Iff.rfl (.fail _ _) (.ite Iff.rfl (.fail _ _) ?_)
    intro st st' hr _
    beta_reduce
    rcases hr.cache full with ⟨h1, h2⟩ | ⟨v, v', h1, h2, h3⟩
    · rw [h1, h2]
      dsimp only
      rcases hl.sim U (full :: stack) kind path st st' hr trivial with ⟨f, hf, h3⟩ | ⟨e, h3, h4⟩ | ⟨a, a', st1, st1', h3, h4, h5, h6, h7⟩
      · exact hf.elim
      · rw [h3, h4]; exact .inr (.inl ⟨e, rfl, rfl⟩)
      · rw [h3, h4]
        refine .inr (.inr ⟨a, a', _, _, rfl, rfl, h5, ⟨h6.globals, fun x => LikeGet.insert h5 _ _ fun _ => h6.cache x, h6.warm, h6.warm'⟩,
          h7.globals, fun x v hx => ?_⟩)
        have hne : x ≠ full := by rintro rfl; rw [h2] at hx; cases hx
        exact (StrMap.get_insert_ne _ _ hne).trans (h7.cache x v hx)
    · rw [h1, h2]; exact .inr (.inr ⟨v, v', st, st', rfl, rfl, h3, hr, Later.refl _⟩)

/-! ## Known definitions -/

section
variable (S fs file stack load)

/-- From `st` on, the expression has the value `v` in the scopes in `P`. -/
def Redone (e : Expr) (P : List Pair → Prop) (st : ESt) (v : Value) : Prop :=
  ∀ ps2, P ps2 → ∀ d2 st2, Warm S st2.rt → Later st st2 → TooDeep (· = file) (evalExpr fs file stack load e ps2 d2 st2) ∨
    ∃ v2 st3, evalExpr fs file stack load e ps2 d2 st2 = .ok (v2, st3) ∧ Like S v v2 ∧ Warm S st3.rt ∧
      st3.globals = st2.globals ∧ st3.cache = st2.cache

/-- The definitions of fields in `Γ` are right. -/
def KnownF (Γ : Defs) (ps : List Pair) (st : ESt) : Prop :=
  ∀ x e, (x, e) ∈ Γ → noField x = false ∧ ∃ p, ps.find? (fun p => p.field == x) = some p ∧
    Redone S fs file stack load e (ScopeLe S ps) st p.value

/-- The definitions of globals in `Θ` are right. -/
def KnownG (U : Str → Prop) (Θ : Defs) (st : ESt) : Prop :=
  ∀ g e, (g, e) ∈ Θ → g.head? = some '@' ∧ g ≠ c!"@" ∧ ¬ U g ∧ ∃ v, StrMap.get st.globals g = some v ∧
    Redone S fs file stack load e (fun _ => True) st v

end

theorem Redone.later {e : Expr} {P : List Pair → Prop} {st st' : ESt} {v : Value} (h : Redone S fs file stack load e P st v) (hl : Later st st') :
    Redone S fs file stack load e P st' v := fun ps2 hp d2 st2 w x => h ps2 hp d2 st2 w (hl.trans x)

/-- Everything known. -/
def KnownDefs (S : IncKind → Nat) (fs : FS) (file : Option Str) (stack : List Str) (load : Loader) (U : Str → Prop) (Θ Γ : Defs)
    (ps : List Pair) (st : ESt) : Prop := KnownG S fs file stack load U Θ st ∧ KnownF S fs file stack load Γ ps st

theorem KnownG.later {Θ : Defs} : Lasting (KnownG S fs file stack load U Θ) := by
  intro st st' h hl g e hg
  obtain ⟨h1, h2, h3, v, h4, h5⟩ := h g e hg
  exact ⟨h1, h2, h3, v, hl.globals _ _ h4, h5.later hl⟩

theorem KnownF.later {Γ : Defs} {ps : List Pair} : Lasting (KnownF S fs file stack load Γ ps) := by
  intro st st' h hl x e hx
  obtain ⟨h1, p, h2, h3⟩ := h x e hx
  exact ⟨h1, p, h2, h3.later hl⟩

theorem KnownF.snoc {Γ : Defs} {ps : List Pair} {st : ESt} (h : KnownF S fs file stack load Γ ps st) (r : List Pair) :
    KnownF S fs file stack load Γ (ps ++ r) st := by
  intro x e hx
  obtain ⟨h1, p, h2, h3⟩ := h x e hx
  exact ⟨h1, p, by rw [List.find?_append, h2]; rfl, fun ps2 hp => h3 ps2 ((ScopeLe.append ps r).trans hp)⟩

theorem KnownDefs.lasting {Θ Γ : Defs} {ps : List Pair} : Lasting (KnownDefs S fs file stack load U Θ Γ ps) :=
  fun _ _ h hl => ⟨KnownG.later _ _ h.1 hl, KnownF.later _ _ h.2 hl⟩

theorem KnownDefs.none {ps : List Pair} {st : ESt} : KnownDefs S fs file stack load U [] [] ps st :=
  ⟨fun _ _ h => absurd h List.not_mem_nil, fun _ _ h => absurd h List.not_mem_nil⟩

/-- A name and its definition. -/
theorem inlined_sim {Θ Γ : Defs} {x : Str} {e : Expr} (h : (x, e) ∈ Γ ∨ (x, e) ∈ Θ) {ps ps' : List Pair} (hp : LikeP S ps ps') (d' : Nat) (hD : D file) :
    SimBy S D U (KnownDefs S fs file stack load U Θ Γ ps') (Like S) (evalName file ps x) (evalExpr fs file stack load e ps' d') := by
  intro st st' hr hk
  have finish : ∀ {v v' : Value} {P : List Pair → Prop}, evalName file ps x st = .ok (v, st) → Like S v v' →
      Redone S fs file stack load e P st' v' → P ps' → SimRes S D U st' (Like S) (evalName file ps x st) (evalExpr fs file stack load e ps' d' st') := by
    intro v v' P h1 h2 h3 hP
    rcases h3 ps' hP d' st' hr.warm' (Later.refl _) with ⟨f, rfl, h4⟩ | ⟨v2, st3, h4, h5, h6, h7, h8⟩
    · exact .inl ⟨_, hD, h4⟩
    · rw [h1, h4]
      refine .inr (.inr ⟨v, v2, st, st3, rfl, rfl, h2.trans h5, ⟨?_, ?_, hr.warm, h6⟩, (Later.refl _).of_eq h7 h8⟩)
      · rw [h7]; exact hr.globals
      · rw [h8]; exact hr.cache
  rcases h with h | h
  · obtain ⟨h1, p, h2, h3⟩ := hk.2 x e h
    have hx : x.head? ≠ some '@' := by intro e; simp [noField, e] at h1
    rcases hp.find x with ⟨-, h5⟩ | ⟨q, q', h4, h5, h6⟩
    · rw [h5] at h2; cases h2
    · rw [h5] at h2
      cases h2
      refine finish (v := q.value) ?_ h6 h3 (ScopeLe.refl _)
      simp only [noField, Bool.or_eq_false_iff, reservedWords, List.contains_eq_mem, List.mem_cons, List.not_mem_nil, or_false,
        decide_eq_false_iff_not, not_or] at h1
      obtain ⟨-, n0, n1, n2, n3, n4, n5, n6, n7⟩ := h1
      unfold evalName
      rw [if_neg n1, if_neg n2, if_neg n3, if_neg n4, if_neg n5, if_neg n6, if_neg n7, if_neg n0, if_neg hx, h4]
      rfl
  · obtain ⟨h1, h2, h3, v, h4, h5⟩ := hk.1 x e h
    rcases hr.globals x h3 with ⟨-, h6⟩ | ⟨w, w', h6, h7, h8⟩
    · rw [h6] at h4; cases h4
    · rw [h7] at h4
      cases h4
      refine finish (v := w) ?_ h8 h5 trivial
      rw [evalName_at h1 h2]
      unfold evalGlobal
      rw [h6]

theorem evalExpr_single (t : Term) (ps : List Pair) (d : Nat) : evalExpr fs file stack load (.mk t []) ps d = evalTerm fs file stack load t ps d := by
  funext st
  simp only [evalExpr, evalChain]
  show EM.bind (evalTerm fs file stack load t ps d) (fun v => EM.bind (fun st => .ok ((v, []), st)) fun x => sumLeft file x.1 x.2) st = _
  unfold EM.bind
  cases evalTerm fs file stack load t ps d st with
  | error e => rfl
  | ok x => rfl

theorem InlTerm.isNumber {t t' : Term} (h : InlTerm U [] [] t t') : t.isNumber = t'.isNumber ∧ t.isGlobal = t'.isGlobal := by
  cases h <;> first | exact ⟨rfl, rfl⟩ | (rename_i h; simp at h)

/-! ## Definitions -/

section
variable (fs file stack load)

/-- What happens after the value of a definition is known. -/
def fieldsCont (tg : Target) (fds : List Field) (d : Nat) (ps : List Pair) (par : Option Obj) (v : Value) : EM (List Pair × Option Obj) :=
  match tg with
  | .field f => evalFields fs file stack load fds d (ps ++ [.mk f v]) par
  | .global g => do
    setGlobal g v
    evalFields fs file stack load fds d ps par
  | .parent => match v with
    | .obj o => evalFields fs file stack load fds d ps (some o)
    | v => .fail file (.api (.typeMismatch .obj v.getType))

theorem evalFields_head (tg : Target) (e : Expr) (fds : List Field) (d : Nat) (ps : List Pair) (par : Option Obj) :
    evalFields fs file stack load (.mk tg e :: fds) d ps par = (checkNew file ps par tg >>= fun _ =>
      evalExpr fs file stack load e ps d >>= fieldsCont fs file stack load tg fds d ps par) := by
  simp only [evalFields]
  rfl

end

/-- The results of definitions. -/
abbrev LikeFields (S : IncKind → Nat) (x y : List Pair × Option Obj) : Prop := LikeP S x.1 y.1 ∧ LikeO S x.2 y.2

/-- One definition in both runs, up to its value. -/
theorem fields_step {tg : Target} {e e' : Expr} {fds fds' : List Field} {d d' : Nat} {ps ps' : List Pair} {par par' : Option Obj}
    {st st' : ESt} (hp : LikeP S ps ps') (hr : LikeO S par par') (htg : ∀ g, tg = .global g → ¬ U g) (hst : RelSt S U st st')
    (he : SimRes S D U st' (Like S) (evalExpr fs file stack load e ps d st) (evalExpr fs file stack load e' ps' d' st'))
    (hc : ∀ v v' st1 st1', Like S v v' → RelSt S U st1 st1' → Later st' st1' → evalExpr fs file stack load e' ps' d' st' = .ok (v', st1') →
      (∀ g, tg = .global g → StrMap.get st'.globals g = none) →
      SimRes S D U st' (LikeFields S) (fieldsCont fs file stack load tg fds d ps par v st1) (fieldsCont fs file stack load tg fds' d' ps' par' v' st1')) :
    SimRes S D U st' (LikeFields S) (evalFields fs file stack load (.mk tg e :: fds) d ps par st)
      (evalFields fs file stack load (.mk tg e' :: fds') d' ps' par' st') := by
  rw [evalFields_head, evalFields_head]
  have h1 : (∃ k, checkNew file ps par tg st = .error k ∧ checkNew file ps' par' tg st' = .error k) ∨
      (checkNew file ps par tg st = .ok ((), st) ∧ checkNew file ps' par' tg st' = .ok ((), st') ∧
        ∀ g, tg = .global g → StrMap.get st'.globals g = none) := by
    cases tg with
    | field f =>
      simp only [checkNew, hp.names]
      split
      · exact .inl ⟨_, rfl, rfl⟩
      · exact .inr ⟨rfl, rfl, by simp⟩
    | parent =>
      simp only [checkNew, hr.isSome]
      split
      · exact .inl ⟨_, rfl, rfl⟩
      · exact .inr ⟨rfl, rfl, by simp⟩
    | global g =>
      simp only [checkNew]
      rcases hst.globals g (htg g rfl) with ⟨h1, h2⟩ | ⟨v, v', h1, h2, h3⟩
      · rw [h1, h2]; exact .inr ⟨rfl, rfl, by rintro _ ⟨⟩; exact h2⟩
      · rw [h1, h2]; exact .inl ⟨_, rfl, rfl⟩
  show SimRes S D U st' (LikeFields S) (EM.bind _ (fun _ => EM.bind _ _) st) (EM.bind _ (fun _ => EM.bind _ _) st')
  unfold EM.bind
  rcases h1 with ⟨k, h1, h2⟩ | ⟨h1, h2, h3⟩
  · rw [h1, h2]; exact .inr (.inl ⟨k, rfl, rfl⟩)
  · rw [h1, h2]
    dsimp only
    rcases he with ⟨f, hf, h4⟩ | ⟨k, h4, h5⟩ | ⟨v, v', st1, st1', h4, h5, h6, h7, h8⟩
    · rw [h4]; exact .inl ⟨f, hf, rfl⟩
    · rw [h4, h5]; exact .inr (.inl ⟨k, rfl, rfl⟩)
    · rw [h4, h5]; exact hc v v' st1 st1' h6 h7 h8 h5 h3

/-- Defining a global in both runs. -/
theorem setGlobal_step {st' st1 st1' : ESt} (h : RelSt S U st1 st1') (hl : Later st' st1') {g : Str} (hg : StrMap.get st'.globals g = none)
    {v v' : Value} (hv : Like S v v') :
    RelSt S U { st1 with globals := StrMap.insert st1.globals g v } { st1' with globals := StrMap.insert st1'.globals g v' } ∧
    Later st' { st1' with globals := StrMap.insert st1'.globals g v' } := by
  refine ⟨⟨fun x hx => LikeGet.insert hv _ _ fun _ => h.globals x hx, h.cache, h.warm, h.warm'⟩, fun x u hx => ?_, hl.cache⟩
  have hne : x ≠ g := by rintro rfl; rw [hg] at hx; cases hx
  exact (StrMap.get_insert_ne _ _ hne).trans (hl.globals x u hx)

/-- The rest of the definitions, when nothing new is to be replaced. -/
theorem cont_sim {Θ Γ : Defs} {tg : Target} {fds fds' : List Field} {d d' : Nat} {ps ps' : List Pair} {par par' : Option Obj}
    {st' : ESt} (hp : LikeP S ps ps') (hr : LikeO S par par')
    (hk : KnownDefs S fs file stack load U Θ Γ ps' st')
    (rest : ∀ {ps ps' : List Pair} {par par' : Option Obj}, LikeP S ps ps' → LikeO S par par' →
      SimBy S D U (KnownDefs S fs file stack load U Θ Γ ps') (LikeFields S) (evalFields fs file stack load fds d ps par)
        (evalFields fs file stack load fds' d' ps' par'))
    {v v' : Value} {st1 st1' : ESt} (hv : Like S v v') (h1 : RelSt S U st1 st1') (hl : Later st' st1')
    (hg : ∀ g, tg = .global g → StrMap.get st'.globals g = none) :
    SimRes S D U st' (LikeFields S) (fieldsCont fs file stack load tg fds d ps par v st1) (fieldsCont fs file stack load tg fds' d' ps' par' v' st1') := by
  have hk1 := KnownDefs.lasting _ _ hk hl
  unfold fieldsCont
  cases tg with
  | field f => exact (rest (hp.snoc hv f) hr st1 st1' h1 ⟨hk1.1, hk1.2.snoc _⟩).later hl
  | global g =>
    obtain ⟨h2, h3⟩ := setGlobal_step h1 hl (hg g rfl) hv
    exact (rest hp hr _ _ h2 (KnownDefs.lasting _ _ hk h3)).later h3
  | parent =>
    cases hv.form <;> try exact .inr (.inl ⟨_, rfl, rfl⟩)
    rename_i o o' ho
    exact (rest hp (show Obj.mapIdsP _ _ = Obj.mapIdsP _ _ by simp only [Obj.mapIdsP, show o.mapIds _ = _ from ho]) st1 st1' h1 hk1).later hl

/-- A field whose definition may be replaced. -/
theorem define_known (hll : LoadLater S load) {Θ Γ : Defs} {x : Str} {e' : Expr} {d' : Nat} {ps' : List Pair} {st' st1' : ESt} {v' : Value} (hx : noField x = false)
    (hd : e'.definesNoGlobal = true) (hk : KnownDefs S fs file stack load U Θ Γ ps' st') (w : Warm S st'.rt)
    (he : evalExpr fs file stack load e' ps' d' st' = .ok (v', st1')) (hn : ps'.find? (fun p => p.field == x) = none) :
    KnownDefs S fs file stack load U Θ ((x, e') :: Γ) (ps' ++ [.mk x v']) st1' := by
  have ha : ∀ ps2, ScopeLe S ps' ps2 → ∀ d2, Again file S (Like S) (evalExpr fs file stack load e' ps' d') (evalExpr fs file stack load e' ps2 d2) :=
    fun ps2 h2 d2 => evalExpr_again hll e' hd (.inl h2)
  obtain ⟨-, hl, -, -⟩ := ha ps' (ScopeLe.refl _) d' st' v' st1' w he
  have hk1 := KnownDefs.lasting _ _ hk hl
  refine ⟨hk1.1, fun y f hy => ?_⟩
  rcases List.mem_cons.1 hy with hy | hy
  · cases hy
    refine ⟨hx, .mk x v', ?_, fun ps2 hp2 d2 st2 w2 l2 => ?_⟩
    · rw [List.find?_append, hn]; simp [Pair.field]
    · obtain ⟨-, -, -, h⟩ := ha ps2 ((ScopeLe.append _ _).trans hp2) d2 st' v' st1' w he
      exact h st2 w2 l2
  · exact hk1.2.snoc _ y f hy

theorem find_none_of_new {ps : List Pair} {x : Str} (h : x ∉ ps.map Pair.field) : ps.find? (fun p => p.field == x) = none := by
  rw [List.find?_eq_none]
  intro p hp he
  exact h (List.mem_map.2 ⟨p, hp, eq_of_beq he⟩)

end

section
variable {S : IncKind → Nat} {D : Option Str → Prop} {U : Str → Prop} {fs : FS} {file : Option Str} {stack : List Str} {load : Loader}

mutual
theorem evalTerm_inl (hD : D file) (hl : LoadSim S load) : ∀ {Θ Γ : Defs} {t t' : Term}, InlTerm U Θ Γ t t' → ∀ {ps ps' : List Pair} {d d' : Nat},
    LikeP S ps ps' → d ≤ d' → SimBy S D U (KnownDefs S fs file stack load U Θ Γ ps') (Like S) (evalTerm fs file stack load t ps d)
      (evalTerm fs file stack load t' ps' d')
  | _, _, _, _, .str, _, _, _, _, _, _ => .of_local (.pure rfl)
  | _, _, _, _, .int, _, _, _, _, _, _ => .of_local (.pure rfl)
  | _, _, _, _, .frac, _, _, _, _, _, _ => .of_local (.pure rfl)
  | _, _, _, _, .name hx, _, _, _, _, hp, _ => evalName_sim hp hx
  | _, _, _, _, .inlined h, ps, ps', d, d', hp, _ => by
    have := inlined_sim (U := U) (fs := fs) (file := file) (stack := stack) (load := load) h hp d' hD
    rw [evalExpr_single] at this
    exact this
  | Θ, Γ, _, _, .dot (t := t) (t' := t') hx h, ps, ps', d, d', hp, hd => by
    simp only [evalTerm]
    obtain ⟨hn1, hn2⟩ := h.isNumber
    have ih : ∀ {qs qs' : List Pair}, LikeP S qs qs' → SimBy S D U (KnownDefs S fs file stack load U Θ Γ ps') (Like S)
        (evalTerm fs file stack load t qs (d + 1)) (evalTerm fs file stack load t' qs' (d' + 1)) :=
      fun hp => (evalTerm_inl hD hl h hp (Nat.succ_le_succ hd)).weaken fun _ _ => KnownDefs.none
    refine .bind KnownDefs.lasting (evalName_sim hp hx) (fun v v' hv => ?_)
    cases hv.form with
    | arr i i' ty vs vs' hvs _ => exact .bind KnownDefs.lasting (ih hp) (fun i i' hi => .of_local (evalIndex_local _ hvs hi))
    | tup i i' ty vs vs' hvs _ => exact .bind KnownDefs.lasting (ih hp) (fun i i' hi => .of_local (evalIndex_local _ hvs hi))
    | obj o o' ho => exact .ite (by rw [hn1]) (.fail _ _) (.ite (by rw [hn2]) (.fail _ _) (ih ho.pairs))
    | _ => exact .fail _ _
  | _, _, _, _, .neg h, ps, ps', d, d', hp, hd => by
    simp only [evalTerm]
    exact .bind KnownDefs.lasting (evalTerm_inl hD hl h hp (Nat.succ_le_succ hd)) (fun v v' hv => .of_local (applyUn_local _ hv))
  | _, _, _, _, .pos h, ps, ps', d, d', hp, hd => by
    simp only [evalTerm]
    exact .bind KnownDefs.lasting (evalTerm_inl hD hl h hp (Nat.succ_le_succ hd)) (fun v v' hv => .of_local (applyUn_local _ hv))
  | _, _, _, _, .arr h, ps, ps', d, d', hp, hd => by
    simp only [evalTerm]
    refine .bind KnownDefs.lasting (.depthCheck (Nat.succ_le_succ hd) (.inr hD)) (fun _ _ _ => .bind KnownDefs.lasting (evalElems_inl hD hl h hp (Nat.succ_le_succ hd))
      (fun x x' hx => ?_))
    obtain ⟨vs, t⟩ := x
    obtain ⟨vs', t'⟩ := x'
    obtain ⟨h1, rfl⟩ : LikeL S vs vs' ∧ t = t' := hx
    exact .of_local (.bind .fresh fun i j hij => .pure (by
      show Value.mapIds _ _ = Value.mapIds _ _
      simp only [Value.mapIds, hij.1, hij.2, show Value.mapIdsL _ vs = _ from h1]))
  | _, _, _, _, .tup h, ps, ps', d, d', hp, hd => by
    simp only [evalTerm]
    refine .bind KnownDefs.lasting (.depthCheck (Nat.succ_le_succ hd) (.inr hD)) (fun _ _ _ => .bind KnownDefs.lasting (evalItems_inl hD hl h hp (Nat.succ_le_succ hd))
      (fun vs vs' hx => ?_))
    exact .of_local (.bind .fresh fun i j hij => .pure (by
      show Value.mapIds _ _ = Value.mapIds _ _
      simp only [Value.mapIds, hij.1, hij.2, show Value.mapIdsL _ vs = _ from hx, hx.getType]))
  | _, _, _, _, .obj h, ps, ps', d, d', hp, hd => by
    simp only [evalTerm]
    refine .bind KnownDefs.lasting (.depthCheck (Nat.succ_le_succ hd) (.inr hD)) (fun _ _ _ => .bind KnownDefs.lasting
      ((evalFields_inl hD hl h (ps := []) (ps' := []) (par := none) (par' := none) rfl rfl (Nat.succ_le_succ hd)).weaken
        fun _ hk => ⟨hk.1, fun _ _ h => absurd h List.not_mem_nil⟩)
      (fun x x' hx => ?_))
    obtain ⟨q, r⟩ := x
    obtain ⟨q', r'⟩ := x'
    obtain ⟨h1, h2⟩ : LikeP S q q' ∧ LikeO S r r' := hx
    exact .of_local (.bind .fresh fun i j hij => .pure (by
      show Value.mapIds _ _ = Value.mapIds _ _
      simp only [Value.mapIds, Obj.mapIds, hij.1, hij.2, show Pair.mapIdsL _ q = _ from h1, show Obj.mapIdsP _ r = _ from h2]))
  | _, _, _, _, .incl h, ps, ps', d, d', hp, hd => by
    simp only [evalTerm]
    refine .bind KnownDefs.lasting (.depthCheck (Nat.succ_le_succ hd) (.inr hD)) (fun _ _ _ => .bind KnownDefs.lasting (evalExpr_inl hD hl h hp (Nat.succ_le_succ hd))
      (fun v v' hv => .bind KnownDefs.lasting (.of_local (evalKeyword_local hv)) (fun k k' hk => ?_)))
    subst hk
    cases k with
    | some k => exact .fail _ _
    | none => cases hv.form <;> first | exact .fail _ _ | exact evalInclude_sim hl _ _
  | _, _, _, _, .inclAs h h', ps, ps', d, d', hp, hd => by
    simp only [evalTerm]
    refine .bind KnownDefs.lasting (.depthCheck (Nat.succ_le_succ hd) (.inr hD)) (fun _ _ _ => .bind KnownDefs.lasting (evalExpr_inl hD hl h hp (Nat.succ_le_succ hd))
      (fun v v' hv => .bind KnownDefs.lasting (.of_local (evalKeyword_local hv)) (fun k k' hk => ?_)))
    subst hk
    cases k with
    | none => exact .fail _ _
    | some k =>
      refine .bind KnownDefs.lasting (evalExpr_inl hD hl h' hp (Nat.succ_le_succ hd)) (fun w w' hw => ?_)
      cases hw.form <;> first | exact .fail _ _ | exact evalInclude_sim hl _ _
theorem evalExpr_inl (hD : D file) (hl : LoadSim S load) : ∀ {Θ Γ : Defs} {e e' : Expr}, InlExpr U Θ Γ e e' → ∀ {ps ps' : List Pair} {d d' : Nat},
    LikeP S ps ps' → d ≤ d' → SimBy S D U (KnownDefs S fs file stack load U Θ Γ ps') (Like S) (evalExpr fs file stack load e ps d)
      (evalExpr fs file stack load e' ps' d')
  | _, _, _, _, .mk h1 h2, ps, ps', d, d', hp, hd => by
    simp only [evalExpr]
    exact .bind KnownDefs.lasting (evalTerm_inl hD hl h1 hp hd) (fun v v' hv => .bind KnownDefs.lasting (evalChain_inl hD hl h2 hv hp hd)
      (fun x x' hx => .of_local (sumLeft_local hx.2 hx.1)))
  | _, _, _, _, .inlined h, ps, ps', d, d', hp, _ => by
    rw [evalExpr_single]
    exact inlined_sim h hp d' hD
theorem evalChain_inl (hD : D file) (hl : LoadSim S load) : ∀ {Θ Γ : Defs} {r r' : List OpTerm}, InlOps U Θ Γ r r' → ∀ {v v' : Value} {ps ps' : List Pair}
    {d d' : Nat}, Like S v v' → LikeP S ps ps' → d ≤ d' → SimBy S D U (KnownDefs S fs file stack load U Θ Γ ps') (LikeChain S)
      (evalChain fs file stack load r v ps d) (evalChain fs file stack load r' v' ps' d')
  | _, _, _, _, .nil, _, _, _, _, _, _, hv, _, _ => .of_local (.pure ⟨hv, .nil⟩)
  | _, _, _, _, .cons h1 h2, v, v', ps, ps', d, d', hv, hp, hd => by
    simp only [evalChain]
    refine .bind KnownDefs.lasting (evalTerm_inl hD hl h1 hp hd) (fun w w' hw => .ite Iff.rfl ?_ ?_)
    · exact .bind KnownDefs.lasting (.of_local (applyBin_local _ hv hw)) (fun u u' hu => evalChain_inl hD hl h2 hu hp hd)
    · exact .bind KnownDefs.lasting (evalChain_inl hD hl h2 hw hp hd) (fun x x' hx => .of_local (.pure ⟨hv, .cons hx.1 hx.2⟩))
theorem evalElems_inl (hD : D file) (hl : LoadSim S load) : ∀ {Θ Γ : Defs} {es es' : List Expr}, InlItems U Θ Γ es es' → ∀ {ps ps' : List Pair}
    {d d' : Nat} {t : Ty}, LikeP S ps ps' → d ≤ d' → SimBy S D U (KnownDefs S fs file stack load U Θ Γ ps') (fun x y => LikeL S x.1 y.1 ∧ x.2 = y.2)
      (evalElems fs file stack load es ps d t) (evalElems fs file stack load es' ps' d' t)
  | _, _, _, _, .nil, _, _, _, _, _, _, _ => .of_local (.pure ⟨rfl, rfl⟩)
  | _, _, _, _, .cons h1 h2, ps, ps', d, d', t, hp, hd => by
    simp only [evalElems]
    refine .bind KnownDefs.lasting (evalExpr_inl hD hl h1 hp hd) (fun v v' hv => ?_)
    rw [← hv.getType]
    cases Ty.mostSpecific t v.getType with
    | none => exact .fail _ _
    | some u => exact .bind KnownDefs.lasting (evalElems_inl hD hl h2 hp hd) (fun x x' hx => .of_local (.pure ⟨.cons hv hx.1, hx.2⟩))
theorem evalItems_inl (hD : D file) (hl : LoadSim S load) : ∀ {Θ Γ : Defs} {es es' : List Expr}, InlItems U Θ Γ es es' → ∀ {ps ps' : List Pair}
    {d d' : Nat}, LikeP S ps ps' → d ≤ d' → SimBy S D U (KnownDefs S fs file stack load U Θ Γ ps') (LikeL S)
      (evalItems fs file stack load es ps d) (evalItems fs file stack load es' ps' d')
  | _, _, _, _, .nil, _, _, _, _, _, _ => .of_local (.pure rfl)
  | _, _, _, _, .cons h1 h2, ps, ps', d, d', hp, hd => by
    simp only [evalItems]
    exact .bind KnownDefs.lasting (evalExpr_inl hD hl h1 hp hd) (fun v v' hv => .bind KnownDefs.lasting (evalItems_inl hD hl h2 hp hd)
      (fun x x' hx => .of_local (.pure (.cons hv hx))))
theorem evalFields_inl (hD : D file) (hl : LoadSim S load) : ∀ {Θ Γ : Defs} {fds fds' : List Field}, InlFields U Θ Γ fds fds' → ∀ {ps ps' : List Pair}
    {par par' : Option Obj} {d d' : Nat}, LikeP S ps ps' → LikeO S par par' → d ≤ d' →
    SimBy S D U (KnownDefs S fs file stack load U Θ Γ ps') (LikeFields S) (evalFields fs file stack load fds d ps par)
      (evalFields fs file stack load fds' d' ps' par')
  | _, _, _, _, .nil, _, _, _, _, _, _, hp, hr, _ => .of_local (.pure ⟨hp, hr⟩)
  | _, _, _, _, .cons htg he h, ps, ps', par, par', d, d', hp, hr, hd => fun st st' hst hk =>
    fields_step hp hr htg hst (evalExpr_inl hD hl he hp hd st st' hst hk) fun v v' st1 st1' hv h1 h2 _ h4 =>
      cont_sim hp hr hk (fun hp hr => evalFields_inl hD hl h hp hr hd) hv h1 h2 h4
  | _, _, _, _, .define (x := x) (e' := e') hx he hg h, ps, ps', par, par', d, d', hp, hr, hd => fun st st' hst hk => by
    by_cases hn : x ∈ ps'.map Pair.field
    · refine .inr (.inl ⟨.sem file (.duplicateField x), ?_, ?_⟩)
      · rw [evalFields_head]
        simp only [checkNew]
        rw [if_pos (by rw [hp.names]; exact hn)]
        rfl
      · rw [evalFields_head]
        simp only [checkNew]
        rw [if_pos hn]
        rfl
    · refine fields_step hp hr (by simp) hst (evalExpr_inl hD hl he hp hd st st' hst hk) fun v v' st1 st1' hv h1 h2 h3 _ => ?_
      have hk' := define_known hl.later hx hg hk hst.warm' h3 (find_none_of_new hn)
      exact (evalFields_inl hD hl h (hp.snoc hv x) hr hd st1 st1' h1 hk').later h2
end

/-- The definitions of a document. -/
theorem evalDocFields_inl (hD : D file) (hl : LoadSim S load) : ∀ {Θ Γ : Defs} {fds fds' : List Field}, InlDoc U Θ Γ fds fds' → ∀ {ps ps' : List Pair}
    {par par' : Option Obj} {d d' : Nat}, LikeP S ps ps' → LikeO S par par' → d ≤ d' →
    SimBy S D U (KnownDefs S fs file stack load U Θ Γ ps') (LikeFields S) (evalFields fs file stack load fds d ps par)
      (evalFields fs file stack load fds' d' ps' par')
  | _, _, _, _, .nil, _, _, _, _, _, _, hp, hr, _ => .of_local (.pure ⟨hp, hr⟩)
  | _, _, _, _, .cons htg he h, ps, ps', par, par', d, d', hp, hr, hd => fun st st' hst hk =>
    fields_step hp hr htg hst (evalExpr_inl hD hl he hp hd st st' hst hk) fun v v' st1 st1' hv h1 h2 _ h4 =>
      cont_sim hp hr hk (fun hp hr => evalDocFields_inl hD hl h hp hr hd) hv h1 h2 h4
  | _, _, _, _, .define (x := x) (e' := e') hx he hg h, ps, ps', par, par', d, d', hp, hr, hd => fun st st' hst hk => by
    by_cases hn : x ∈ ps'.map Pair.field
    · refine .inr (.inl ⟨.sem file (.duplicateField x), ?_, ?_⟩)
      · rw [evalFields_head]
        simp only [checkNew]
        rw [if_pos (by rw [hp.names]; exact hn)]
        rfl
      · rw [evalFields_head]
        simp only [checkNew]
        rw [if_pos hn]
        rfl
    · refine fields_step hp hr (by simp) hst (evalExpr_inl hD hl he hp hd st st' hst hk) fun v v' st1 st1' hv h1 h2 h3 _ => ?_
      have hk' := define_known hl.later hx hg hk hst.warm' h3 (find_none_of_new hn)
      exact (evalDocFields_inl hD hl h (hp.snoc hv x) hr hd st1 st1' h1 hk').later h2
  | _, _, _, _, .global (g := g) (e' := e') hg1 hg2 hU he hd1 hd2 h, ps, ps', par, par', d, d', hp, hr, hd => fun st st' hst hk => by
    refine fields_step hp hr (by rintro _ ⟨⟩; exact hU) hst (evalExpr_inl hD hl he hp hd st st' hst hk) fun v v' st1 st1' hv h1 h2 h3 h4 => ?_
    obtain ⟨h5, h6⟩ := setGlobal_step h1 h2 (h4 g rfl) hv
    refine (evalDocFields_inl hD hl h hp hr hd _ _ h5 ?_).later h6
    have hk1 := KnownDefs.lasting _ _ hk h6
    refine ⟨fun y f hy => ?_, hk1.2⟩
    rcases List.mem_cons.1 hy with hy | hy
    · cases hy
      refine ⟨hg1, hg2, hU, v', StrMap.get_insert_self _ _ _, fun ps2 _ d2 st2 w2 l2 => ?_⟩
      obtain ⟨-, -, hg, ha⟩ := evalExpr_again (fs := fs) (file := file) (stack := stack) hl.later e' hd1 (ps := ps') (ps' := ps2) (d := d') (d' := d2)
        (.inr hd2) st' v' st1' hst.warm' h3
      refine ha st2 w2 ⟨fun x u hx => ?_, l2.cache⟩
      have hne : x ≠ g := by
        rintro rfl
        rw [hg, h4 x rfl] at hx
        cases hx
      exact l2.globals x u ((StrMap.get_insert_ne _ _ hne).trans hx)
    · exact hk1.1 y f hy

end

end Over
