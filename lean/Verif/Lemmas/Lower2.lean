import Verif.Lemmas.Extend
import Verif.Lemmas.Lower

/-!
# Errors point at what has not been read yet: fields, containers, includes

See `Verif.Lemmas.Lower`.
-/

set_option linter.unusedSectionVars false

namespace Over

section
variable [Unicode] {L : LCtx} {F : Option Str}

/-- What was defined so far is kept: later fields come after it, and the parent stays. -/
def Keeps (ps : List Pair) (par : Option Obj) (x : List Pair × Option Obj) : Prop :=
  (∃ more, x.1 = ps ++ more) ∧ (par.isSome = true → x.2 = par)

theorem Keeps.rfl' (ps : List Pair) (par : Option Obj) : Keeps ps par (ps, par) := ⟨⟨[], by simp⟩, fun _ => rfl⟩

theorem Keeps.trans {ps : List Pair} {par : Option Obj} {x y : List Pair × Option Obj} (h : Keeps ps par x) (h' : Keeps x.1 x.2 y) :
    Keeps ps par y := by
  obtain ⟨⟨m, hm⟩, hp⟩ := h
  obtain ⟨⟨m', hm'⟩, hp'⟩ := h'
  refine ⟨⟨m ++ m', by rw [hm', hm, List.append_assoc]⟩, fun h => ?_⟩
  rw [hp' (by rw [hp h]; exact h), hp h]

omit [Unicode] in
theorem lb_checkDuplicate' (f : Str) (ft : FieldType) (ps : List Pair) (par : Option Obj) (l c : Nat) (hl : F = L.main → L.line ≤ l) :
    LB L F (checkDuplicate f ft ps par l c) (fun _ => ft = .parent → par.isSome = false) := by
  intro s h1 h2
  have h3 := lb_checkDuplicate f ft ps par l c hl s h1 h2
  cases e : checkDuplicate f ft ps par l c s with
  | ok a s' =>
    rw [e] at h3
    refine ⟨h3.1, h3.2.1, fun hf => ?_⟩
    subst hf
    unfold checkDuplicate at e
    cases par with
    | none => rfl
    | some o => simp at e
  | err e' => rw [e] at h3; exact h3
  | panic => trivial
  | oof => trivial

variable {pv : PV} (hpv : LBPV L pv)
include hpv

theorem lb_fieldHead (ps : List Pair) (par : Option Obj) (d : Nat) (brace : Option Char) :
    LB L F (fieldHead pv ps par d brace) (Keeps ps par) := by
  refine lb_bind lb_getPos fun fp hfp => ?_
  refine lb_bind (lb_liftLex fun hF r p h => lexField_low (hfp hF) r p h) ?_
  rintro ⟨f, ft⟩ -
  refine lb_bind (lb_checkDuplicate' _ _ _ _ _ _ hfp) fun _ hd => ?_
  refine lb_bind lb_findCharP fun b _ => lb_ite (fun _ => lb_failEnd) fun _ => ?_
  refine lb_bind lb_getPos fun vp hvp => ?_
  refine lb_bind (hpv F _ _ _ _ _ _ hvp) fun v _ => ?_
  refine lb_mono (lb_storeField _ _ _ _ _ _ _ hvp) ?_
  rintro x ⟨more, hm, hx⟩
  refine ⟨⟨more, hm⟩, fun hp => hx fun hf => ?_⟩
  rw [hd hf] at hp; cases hp

theorem lb_parseFieldValuePair (ps : List Pair) (par : Option Obj) (d : Nat) (brace : Option Char) :
    LB L F (parseFieldValuePair pv ps par d brace) (fun x => Keeps ps par x.2) := by
  rw [parseFieldValuePair_eq]
  refine lb_bind lb_peekP fun c _ => ?_
  cases c with
  | none => exact lb_panic
  | some ch =>
    refine lb_ite (fun _ => ?_) fun _ => lb_ite (fun _ => ?_) fun _ => ?_
    · exact lb_bind lb_nextP fun _ _ => lb_pure (Keeps.rfl' _ _)
    · exact lb_bind lb_getPos fun p hp => lb_fail' hp rfl
    · refine lb_bind (lb_fieldHead hpv ps par d brace) fun x hx => ?_
      refine lb_bind lb_findCharP fun b _ => lb_ite (fun _ => ?_) fun _ => lb_pure hx
      cases brace with
      | some _ => exact lb_failEnd
      | none => exact lb_pure hx

theorem lb_fieldsLoop (d : Nat) (brace : Option Char) : ∀ (n : Nat) (ps : List Pair) (par : Option Obj),
    LB L F (fieldsLoop pv d brace n ps par) (Keeps ps par)
  | 0, _, _ => lb_oof
  | n + 1, ps, par => by
    refine lb_bind (lb_parseFieldValuePair hpv ps par d brace) ?_
    rintro ⟨more, ps1, par1⟩ h
    exact lb_ite (fun _ => lb_mono (lb_fieldsLoop d brace n ps1 par1) fun _ h' => h.trans h') fun _ => lb_pure h

omit hpv [Unicode] in
theorem lb_checkDepth (d : Nat) : LB L F (checkDepth d) Any :=
  lb_ite (fun _ => lb_bind lb_getPos fun _ hp => lb_fail' hp rfl) fun _ => lb_pure trivial

theorem lb_parseObjStream : LB L F (parseObjStream pv) Any := by
  refine lb_bind lb_findCharP fun _ _ => lb_ite (fun _ => lb_bind lb_genId fun _ _ => lb_pure trivial) fun _ => ?_
  refine lb_bind (lb_withBound fun n => lb_fieldsLoop hpv 1 none n _ _) ?_
  rintro ⟨ps, par⟩ -
  exact lb_bind lb_genId fun _ _ => lb_pure trivial

theorem lb_parseObj (d : Nat) : LB L F (parseObj pv d) Any := by
  refine lb_bind (lb_checkDepth d) fun _ _ => ?_
  refine lb_bind (lb_expectP _) fun _ _ => ?_
  refine lb_bind lb_findCharP fun _ _ => lb_ite (fun _ => lb_failEnd) fun _ => ?_
  refine lb_bind (lb_withBound fun n => lb_fieldsLoop hpv d (some '}') n _ _) ?_
  rintro ⟨ps, par⟩ -
  exact lb_bind lb_genId fun _ _ => lb_pure trivial

omit hpv [Unicode] in
theorem lb_arrStep (t : Ty) (a : Bool) (v : Value) (l c : Nat) (hl : F = L.main → L.line ≤ l) : LB L F (arrStep t a v l c) Any := by
  unfold arrStep
  cases arrTypeStep t a v.getType with
  | none => exact lb_fail' hl rfl
  | some r => exact lb_pure trivial

omit [Unicode] in
theorem lb_arrLoop (ps : List Pair) (d : Nat) : ∀ (n : Nat) (vs : List Value) (t : Ty) (a : Bool),
    LB L F (arrLoop pv ps d n vs t a) Any
  | 0, _, _, _ => lb_oof
  | n + 1, vs, t, a => by
    refine lb_bind lb_findCharP fun _ _ => lb_ite (fun _ => lb_failEnd) fun _ => ?_
    refine lb_bind lb_peekP fun c _ => ?_
    cases c with
    | none => exact lb_panic
    | some ch =>
      refine lb_ite (fun _ => ?_) fun _ => lb_ite (fun _ => ?_) fun _ => ?_
      · exact lb_bind lb_nextP fun _ _ => lb_pure trivial
      · exact lb_bind lb_getPos fun p hp => lb_fail' hp rfl
      · refine lb_bind lb_getPos fun p hp => ?_
        refine lb_bind (hpv F _ _ _ _ _ _ hp) fun v _ => ?_
        refine lb_bind (lb_arrStep _ _ _ _ _ hp) ?_
        rintro ⟨t', a'⟩ -
        exact lb_arrLoop ps d n _ _ _

omit [Unicode] in
theorem lb_parseArr (ps : List Pair) (d : Nat) : LB L F (parseArr pv ps d) Any := by
  refine lb_bind (lb_checkDepth d) fun _ _ => ?_
  refine lb_bind (lb_expectP _) fun _ _ => ?_
  refine lb_bind (lb_withBound fun n => lb_arrLoop hpv ps d n _ _ _) ?_
  rintro ⟨vs, t⟩ -
  exact lb_bind lb_genId fun _ _ => lb_pure trivial

omit [Unicode] in
theorem lb_tupLoop (ps : List Pair) (d : Nat) : ∀ (n : Nat) (vs : List Value), LB L F (tupLoop pv ps d n vs) Any
  | 0, _ => lb_oof
  | n + 1, vs => by
    refine lb_bind lb_findCharP fun _ _ => lb_ite (fun _ => lb_failEnd) fun _ => ?_
    refine lb_bind lb_peekP fun c _ => ?_
    cases c with
    | none => exact lb_panic
    | some ch =>
      refine lb_ite (fun _ => ?_) fun _ => lb_ite (fun _ => ?_) fun _ => ?_
      · exact lb_bind lb_nextP fun _ _ => lb_pure trivial
      · exact lb_bind lb_getPos fun p hp => lb_fail' hp rfl
      · refine lb_bind lb_getPos fun p hp => ?_
        exact lb_bind (hpv F _ _ _ _ _ _ hp) fun v _ => lb_tupLoop ps d n _

omit [Unicode] in
theorem lb_parseTup (ps : List Pair) (d : Nat) : LB L F (parseTup pv ps d) Any := by
  refine lb_bind (lb_checkDepth d) fun _ _ => ?_
  refine lb_bind (lb_expectP _) fun _ _ => ?_
  refine lb_bind (lb_withBound fun n => lb_tupLoop hpv ps d n _) fun vs _ => ?_
  exact lb_bind lb_genId fun _ _ => lb_pure trivial

omit [Unicode] in
theorem lb_arrFileLoop : ∀ (n : Nat) (vs : List Value) (t : Ty) (a : Bool), LB L F (arrFileLoop pv n vs t a) Any
  | 0, _, _, _ => lb_oof
  | n + 1, vs, t, a => by
    refine lb_bind lb_findCharP fun _ _ => lb_ite (fun _ => lb_pure trivial) fun _ => ?_
    refine lb_bind lb_getPos fun p hp => ?_
    refine lb_bind (hpv F _ _ _ _ _ _ hp) fun v _ => ?_
    refine lb_bind (lb_arrStep _ _ _ _ _ hp) ?_
    rintro ⟨t', a'⟩ -
    exact lb_arrFileLoop n _ _ _

omit [Unicode] in
theorem lb_tupFileLoop : ∀ (n : Nat) (vs : List Value), LB L F (tupFileLoop pv n vs) Any
  | 0, _ => lb_oof
  | n + 1, vs => by
    refine lb_bind lb_findCharP fun _ _ => lb_ite (fun _ => lb_pure trivial) fun _ => ?_
    refine lb_bind lb_getPos fun p hp => ?_
    exact lb_bind (hpv F _ _ _ _ _ _ hp) fun v _ => lb_tupFileLoop n _

theorem lb_parseFileBody (k : IncKind) : LB L F (parseFileBody pv k) Any := by
  cases k with
  | obj => exact lb_bind (lb_parseObjStream hpv) fun _ _ => lb_pure trivial
  | arr =>
    refine lb_bind (lb_withBound fun n => lb_arrFileLoop hpv n _ _ _) ?_
    rintro ⟨vs, t⟩ -
    exact lb_bind lb_genId fun _ _ => lb_pure trivial
  | tup =>
    refine lb_bind (lb_withBound fun n => lb_tupFileLoop hpv n _) fun vs _ => ?_
    exact lb_bind lb_genId fun _ _ => lb_pure trivial
  | str => exact lb_panic

omit hpv [Unicode] in
theorem lb_resolveInclude (f : Str) (l c : Nat) (hl : F = L.main → L.line ≤ l) :
    LB L F (resolveInclude L.fs f l c) (fun x => L.fs.resolve x.1 = some x.2) := by
  refine lb_bind lb_getFile fun file _ => ?_
  cases includeTarget file f with
  | none => exact lb_panic
  | some path =>
    refine lb_ite (fun _ => lb_fail' hl rfl) fun _ => ?_
    cases h : L.fs.resolve path with
    | none => exact lb_fail' hl rfl
    | some full => exact lb_ite (fun _ => lb_fail' hl rfl) fun _ => lb_pure h

/-- The context fits: the main file, if it is one, has a canonical path. -/
def LCtx.Fits (L : LCtx) : Prop :=
  (L.main = none → L.full = none) ∧ ∀ m, L.main = some m → ∃ G, L.full = some G ∧ L.fs.resolve m = some G

omit hpv [Unicode] in
theorem lb_inFile (path contents : Str) {m : P Value} (h : LB L (some path) m Any) (s : PState) (hp : some path ≠ L.main)
    (hF : L.Files (some path) s.inc.opened) :
    match inFile path contents m s with
    | .ok _ s' => s'.stream = s.stream ∧ L.Files (some path) s'.inc.opened
    | .err e => ErrLow L e
    | .panic => True
    | .oof => True := by
  have h3 := h { s with stream := Stream.ofString (some path) contents, globals := [] } ⟨rfl, hF⟩ (fun h => absurd h hp)
  unfold inFile
  cases e : m { s with stream := Stream.ofString (some path) contents, globals := [] } with
  | ok v s' => rw [e] at h3; exact ⟨rfl, h3.1.2⟩
  | err e' => rw [e] at h3; exact h3
  | panic => trivial
  | oof => trivial

theorem lb_loadCached (k : IncKind) (path full : Str) (s : PState) (hp : some path ≠ L.main) (hF : L.Files (some path) s.inc.opened) :
    match loadCached L.fs pv k path full s with
    | .ok _ s' => s'.stream = s.stream ∧ L.Files (some path) s'.inc.opened
    | .err e => ErrLow L e
    | .panic => True
    | .oof => True := by
  unfold loadCached
  cases StrMap.get s.inc.cache full with
  | some v => exact ⟨rfl, hF⟩
  | none =>
    simp only [loadFile]
    cases L.fs.read path with
    | error m =>
      intro _
      exact ⟨(fun _ _ h => by cases h), (fun _ h => by cases h), (fun _ h => by cases h)⟩
    | ok t =>
      simp only
      by_cases hk : k = .str
      · simp only [if_pos hk]; exact ⟨rfl, hF⟩
      · simp only [if_neg hk]
        have h := lb_inFile path t (lb_parseFileBody hpv k) s hp hF
        cases e : inFile path t (parseFileBody pv k) s with
        | ok v s' => rw [e] at h; exact h
        | err e' => rw [e] at h; exact h
        | panic => trivial
        | oof => trivial

theorem lb_includeFileP (hL : L.Fits) (k : IncKind) (f : Str) (l c : Nat) (hl : F = L.main → L.line ≤ l) :
    LB L F (includeFileP L.fs pv k f l c) Any := by
  refine lb_bind (lb_resolveInclude f l c hl) ?_
  rintro ⟨path, full⟩ hr
  simp only at hr
  intro s h1 h2
  change LBRes L F Any (P.bind (storeCurrent L.fs) _ s)
  unfold P.bind
  have hst : storeCurrent L.fs s = .panic ∨ (F = none ∧ storeCurrent L.fs s = .ok none s) ∨
      ∃ p G, F = some p ∧ L.fs.resolve p = some G ∧ storeCurrent L.fs s = .ok (some G) { s with inc := { s.inc with
          opened := if s.inc.opened.contains G then s.inc.opened else G :: s.inc.opened } } := by
    unfold storeCurrent
    rw [h1.1]
    cases F with
    | none => exact .inr (.inl ⟨rfl, rfl⟩)
    | some p =>
      simp only
      cases e : L.fs.resolve p with
      | none => exact .inl rfl
      | some G =>
        simp only
        split
        · exact .inr (.inr ⟨p, G, rfl, e, rfl⟩)
        · exact .inl rfl
  have hafter : ∀ st s3, storeCurrent L.fs s = .ok st s3 → s3.stream = s.stream ∧
      (∀ G, L.full = some G → G ∈ s3.inc.opened) ∧ (∀ G, L.full = some G → F = L.main ∨ st ≠ some G) := by
    intro st s3 e
    rcases hst with h | ⟨hF, h⟩ | ⟨p, G', hF, hG', h⟩
    · rw [h] at e; cases e
    · rw [h] at e; cases e
      refine ⟨rfl, fun G hG => ?_, fun G hG => .inr (by simp)⟩
      by_cases hm : F = L.main
      · rw [hL.1 (hm ▸ hF)] at hG; cases hG
      · exact (h1.2 hm G hG).1
    · rw [h] at e; cases e
      refine ⟨rfl, fun G hG => ?_, fun G hG => ?_⟩
      · by_cases hm : F = L.main
        · obtain ⟨G2, h3, h4⟩ := hL.2 p (by rw [← hm, hF])
          rw [hG] at h3; cases h3
          rw [hG'] at h4; cases h4
          simp only
          split
          · rename_i h; simpa using h
          · simp
        · have := (h1.2 hm G hG).1
          simp only
          split
          · exact this
          · exact List.mem_cons_of_mem _ this
      · by_cases hm : F = L.main
        · exact .inl hm
        · refine .inr fun h => ?_
          injection h with h
          subst h
          exact (h1.2 hm G' hG).2 p hF hG'
  cases e : storeCurrent L.fs s with
  | err e' => rcases hst with h | ⟨-, h⟩ | ⟨_, _, -, -, h⟩ <;> rw [h] at e <;> cases e
  | panic => trivial
  | oof => trivial
  | ok st s3 =>
    obtain ⟨h3, h4, h5⟩ := hafter st s3 e
    simp only
    change LBRes L F Any (P.bind getOpened _ s3)
    unfold P.bind
    simp only [getOpened]
    by_cases hc : s3.inc.opened.contains full = true
    · rw [if_pos hc]
      intro hF
      rw [h3, h1.1] at hF
      exact onOrAfter_lineCol (hl hF) rfl
    · rw [if_neg hc]
      have hne : ∀ G, L.full = some G → full ≠ G := by
        rintro G hG rfl
        exact hc (by simpa using h4 _ hG)
      have hp : some path ≠ L.main := by
        intro hm
        obtain ⟨G, h6, h7⟩ := hL.2 path hm.symm
        rw [hr] at h7
        cases h7
        exact hne _ h6 rfl
      have hl := lb_loadCached hpv k path full s3 hp fun _ G hG => ⟨h4 G hG, fun q hq => by
        injection hq with hq
        rw [← hq, hr]
        exact fun h => hne G hG (by injection h)⟩
      change LBRes L F Any (P.bind (loadCached L.fs pv k path full) _ s3)
      unfold P.bind
      cases e4 : loadCached L.fs pv k path full s3 with
      | ok v s4 =>
        rw [e4] at hl
        obtain ⟨h6, h7⟩ := hl
        simp only
        change LBRes L F Any (P.bind (unstore st) _ s4)
        have hs : s4.stream = s.stream := h6.trans h3
        have hk : ∀ (s5 : PState), s5.stream = s4.stream → (∀ G, L.full = some G → F ≠ L.main → G ∈ s5.inc.opened) →
            LBRes L F Any (.ok v s5 : Res Value) := by
          intro s5 h8 h9
          refine ⟨⟨by rw [h8, hs]; exact h1.1, fun hF G hG => ⟨h9 G hG hF, (h1.2 hF G hG).2⟩⟩, fun hF => ?_, trivial⟩
          rw [h8, hs]; exact h2 hF
        cases st with
        | none => exact hk s4 rfl fun G hG _ => (h7 hp G hG).1
        | some g =>
          refine hk _ rfl fun G hG hF => ?_
          simp only [List.mem_filter]
          refine ⟨(h7 hp G hG).1, ?_⟩
          rcases h5 G hG with h8 | h8
          · exact absurd h8 hF
          · simpa using fun h : G = g => h8 (by rw [h])
      | err e' => rw [e4] at hl; exact hl
      | panic => trivial
      | oof => trivial

omit hpv [Unicode] in
theorem lb_includeKeyword (v : Value) (l c : Nat) (hl : F = L.main → L.line ≤ l) : LB L F (includeKeyword v l c) Any := by
  unfold includeKeyword
  cases v with
  | obj o =>
    refine lb_bind (lb_forceSentinel _) fun _ _ => lb_ite (fun _ => lb_pure trivial) fun _ => ?_
    refine lb_bind (lb_forceSentinel _) fun _ _ => lb_ite (fun _ => lb_pure trivial) fun _ => ?_
    refine lb_bind (lb_forceSentinel _) fun _ _ => lb_ite (fun _ => lb_pure trivial) fun _ => ?_
    exact lb_bind (lb_forceSentinel _) fun _ _ => lb_ite (fun _ => lb_pure trivial) fun _ => lb_fail' hl rfl
  | str s => exact lb_pure trivial
  | _ => exact lb_fail' hl rfl

omit [Unicode] in
theorem lb_includePath (ps : List Pair) (d : Nat) (kw : Option IncKind) (v : Value) (p : Pos) (hp : PLow L F p) :
    LB L F (includePath pv ps d kw v p) (fun x => PLow L F x.2) := by
  unfold includePath
  cases kw with
  | none => exact lb_pure hp
  | some _ =>
    refine lb_bind lb_findCharP fun _ _ => lb_ite (fun _ => lb_failEnd) fun _ => ?_
    refine lb_bind lb_getPos fun p hp => ?_
    exact lb_bind (hpv F _ _ _ _ _ _ hp) fun v _ => lb_pure hp

omit hpv [Unicode] in
theorem lb_includeClose : LB L F includeClose Any := by
  refine lb_bind lb_findCharP fun _ _ => lb_ite (fun _ => lb_failEnd) fun _ => ?_
  refine lb_bind lb_nextP fun c _ => ?_
  cases c with
  | none => exact lb_panic
  | some ch =>
    refine lb_ite (fun _ => lb_pure trivial) fun _ => ?_
    refine lb_bind lb_getPos fun p hp => ?_
    cases usub p.col 1 with
    | none => exact lb_panic
    | some c => exact lb_fail' hp rfl

theorem lb_parseInclude (hL : L.Fits) (ps : List Pair) (d : Nat) : LB L F (parseInclude L.fs pv ps d) Any := by
  refine lb_bind (lb_checkDepth d) fun _ _ => ?_
  refine lb_bind (lb_expectP _) fun _ _ => ?_
  refine lb_bind lb_findCharP fun _ _ => lb_ite (fun _ => lb_failEnd) fun _ => ?_
  refine lb_bind lb_getPos fun p hp => ?_
  refine lb_bind (hpv F _ _ _ _ _ _ hp) fun v _ => ?_
  refine lb_bind (lb_includeKeyword _ _ _ hp) fun kw _ => ?_
  refine lb_bind (lb_includePath hpv _ _ _ _ _ hp) ?_
  rintro ⟨v, p⟩ hp
  refine lb_bind lb_includeClose fun _ _ => ?_
  cases v with
  | str f => exact lb_includeFileP hpv hL _ _ _ _ hp
  | _ => exact lb_fail' hp rfl

theorem lb_parseTerm (hL : L.Fits) (ps : List Pair) (l c d : Nat) (brace : Option Char) (hl : F = L.main → L.line ≤ l) :
    LB L F (parseTerm L.fs pv ps l c d brace) Any := by
  refine lb_bind lb_peekP fun x _ => ?_
  cases x with
  | none => exact lb_panic
  | some ch =>
    refine lb_ite (fun _ => lb_parseStr) fun _ => ?_
    refine lb_ite (fun _ => lb_parseObj hpv _) fun _ => ?_
    refine lb_ite (fun _ => lb_parseArr hpv _ _) fun _ => ?_
    refine lb_ite (fun _ => lb_parseTup hpv _ _) fun _ => ?_
    refine lb_ite (fun _ => lb_parseInclude hpv hL _ _) fun _ => ?_
    refine lb_ite (fun _ => lb_parseUnary hpv _ _ _ _) fun _ => ?_
    refine lb_ite (fun _ => lb_parseUnary hpv _ _ _ _) fun _ => ?_
    refine lb_ite (fun _ => lb_parseNumeric _ _ hl) fun _ => ?_
    refine lb_ite (fun _ => ?_) fun _ => lb_fail' hl rfl
    exact lb_withBound fun n => lb_parseVariable hpv brace n _ _ _ _ hl

theorem lb_parseValueBody (hL : L.Fits) : LBPV L (parseValueBody L.fs pv) := by
  intro F ps l c d brace first hl
  refine lb_bind (lb_parseTerm hpv hL _ _ _ _ _ hl) fun v _ => ?_
  exact lb_ite (fun _ => lb_parseOps hpv _ _ _ _ _ _ hl) fun _ => lb_pure trivial

end

/-- No error of a value in the text points before the line the value is read from. -/
theorem lb_parseValue [Unicode] (L : LCtx) (hL : L.Fits) : ∀ n, LBPV L (parseValue L.fs n)
  | 0 => fun _ _ _ _ _ _ _ _ => lb_oof
  | n + 1 => lb_parseValueBody (lb_parseValue L hL n) hL

end Over
