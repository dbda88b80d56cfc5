import Verif.Lemmas.Stack

/-!
# How deep the calls of `parse_value` are nested: the whole parser
-/

set_option linter.unusedSectionVars false
set_option linter.unusedVariables false

namespace Over

section
variable [Unicode] {k : Nat} {F : Option Str} {O : List Str} {α β : Type}

/-- … in states where a chain of at most `c` comes next. -/
def AgrC (k : Nat) (F : Option Str) (O : List Str) (c : Nat) {α : Type} (m m' : P α) : Prop :=
  ∀ s, Ok k F O s → chainLen s.stream.rest ≤ c → m s = m' s ∧ ∀ a s', m s = .ok a s' → Ok k F O s'

theorem Agr.c {m m' : P α} (h : Agr k F O m m') (c : Nat) : AgrC k F O c m m' := fun s hs _ => h s hs
theorem AgrC.all {m m' : P α} (h : AgrC k F O k m m') : Agr k F O m m' := fun s hs => h s hs hs.chains.here
theorem AgrC.mono {m m' : P α} {c c' : Nat} (h : AgrC k F O c m m') (hc : c' ≤ c) : AgrC k F O c' m m' :=
  fun s hs hl => h s hs (hl.trans hc)

theorem AgrC.bind {c : Nat} {m m' : P α} {f f' : α → P β} (h : AgrC k F O c m m') (hf : ∀ a, Agr k F O (f a) (f' a)) :
    AgrC k F O c (m >>= f) (m' >>= f') := by
  intro s hs hc
  obtain ⟨h1, h2⟩ := h s hs hc
  simp only [Bind.bind, P.bind]
  rw [← h1]
  cases hm : m s with
  | ok a s' => exact hf a s' (h2 a s' hm)
  | err e => exact ⟨rfl, fun _ _ h => by cases h⟩
  | panic => exact ⟨rfl, fun _ _ h => by cases h⟩
  | oof => exact ⟨rfl, fun _ _ h => by cases h⟩

theorem AgrC.getPos {c : Nat} {f f' : Pos → P β} (hf : ∀ a, AgrC k F O c (f a) (f' a)) :
    AgrC k F O c (getPos >>= f) (Over.getPos >>= f') := fun s hs hc => hf _ s hs hc

theorem AgrC.peek {c : Nat} {f f' : Option Char → P β} (hf : ∀ a, AgrC k F O c (f a) (f' a)) :
    AgrC k F O c (peekP >>= f) (peekP >>= f') := fun s hs hc => hf _ s hs hc

/-! ## The parts that do not call `parse_value` -/

theorem Agr.unaryOp (v : Value) (op : UnOp) (l c : Nat) : Agr k F O (unaryOp v op l c) (unaryOp v op l c) := by
  rw [unaryOp_eq]
  cases op <;> cases v <;> first | exact .fail _ | exact .pure _

theorem Agr.binaryOp (v w : Value) (op : BinOp) (l c : Nat) : Agr k F O (binaryOp v w op l c) (binaryOp v w op l c) := by
  rw [binaryOp_eq]
  cases binSem op v w with
  | val v => exact .pure _
  | newArr t vs => exact .bind .genId fun _ => .pure _
  | bad t1 t2 => exact .fail _
  | divisionByZero => exact .fail _

theorem Agr.checkValueEnd (brace : Option Char) : Agr k F O (checkValueEnd brace) (checkValueEnd brace) := by
  refine .bind .peek fun c => ?_
  cases c with
  | none => exact .pure _
  | some ch =>
    exact .bind .getPos fun p => .ite (fun _ => .ite (fun _ => .fail _) fun _ => .pure _) fun _ => .fail _

theorem Agr.parseNumeric (l c : Nat) : Agr k F O (parseNumeric l c) (parseNumeric l c) := by
  refine .bind (.lex fun r p => numGo_suf r p [] [] false false) ?_
  rintro ⟨s1, s2, dec⟩
  simp only
  cases numFinish s1 s2 dec with
  | val v => exact .pure _
  | invalid => exact .fail _
  | parseInt => exact .err _

theorem Agr.parseStr : Agr k F O parseStr parseStr := .bind (.lex fun r p => lexStr_suf r p) fun _ => .pure _

theorem Agr.foldOps : ∀ (ops : List BinOp) (v : Value) (vs : List (Value × Nat × Nat)), Agr k F O (foldOps v vs ops) (foldOps v vs ops)
  | [], v, vs => by
    cases vs <;> exact .pure v
  | op :: ops, v, [] => .panic
  | op :: ops, v, (w, l, c) :: vs => .bind (.binaryOp _ _ _ _ _) fun r => Agr.foldOps ops r vs

theorem Agr.lookupVar (ps : List Pair) (x : Str) (g : Bool) (l c : Nat) : Agr k F O (lookupVar ps x g l c) (lookupVar ps x g l c) := by
  unfold Over.lookupVar
  refine .ite (fun _ => .pure _) fun _ => .ite (fun _ => .pure _) fun _ => .ite (fun _ => .pure _) fun _ => ?_
  refine .ite (fun _ => .bind (.forceSentinel _) fun _ => .pure _) fun _ => .ite (fun _ => .bind (.forceSentinel _) fun _ => .pure _) fun _ => ?_
  refine .ite (fun _ => .bind (.forceSentinel _) fun _ => .pure _) fun _ => .ite (fun _ => .bind (.forceSentinel _) fun _ => .pure _) fun _ => ?_
  refine .ite (fun _ => .fail _) fun _ => .ite (fun _ => ?_) fun _ => ?_
  · intro s hs
    refine ⟨rfl, fun a s' h => ?_⟩
    unfold lookupGlobal at h
    cases hg : StrMap.get s.globals x with
    | some v => simp only [hg] at h; cases h; exact hs
    | none => simp only [hg] at h; cases h
  · cases findPair ps x with
    | some p => exact .pure _
    | none => exact .fail _

theorem forceSentinel_stream {kd : IncKind} {s s' : PState} {i : Nat} (h : forceSentinel kd s = .ok i s') : s'.stream = s.stream := by
  cases kd <;> simp only [Over.forceSentinel] at h <;> split at h <;> cases h <;> rfl

theorem lookupVar_stream {ps : List Pair} {x : Str} {g : Bool} {l c : Nat} {s s' : PState} {v : Value}
    (h : lookupVar ps x g l c s = .ok v s') : s'.stream = s.stream := by
  have hf : ∀ kd, (do let i ← forceSentinel kd; pure (.obj (Obj.empty i)) : P Value) s = .ok v s' → s'.stream = s.stream := by
    intro kd h
    simp only [Bind.bind, P.bind] at h
    cases hk : forceSentinel kd s with
    | ok i s1 => rw [hk] at h; cases h; exact forceSentinel_stream hk
    | err e => rw [hk] at h; cases h
    | panic => rw [hk] at h; cases h
    | oof => rw [hk] at h; cases h
  unfold Over.lookupVar at h
  split at h; · cases h; rfl
  split at h; · cases h; rfl
  split at h; · cases h; rfl
  split at h; · exact hf _ h
  split at h; · exact hf _ h
  split at h; · exact hf _ h
  split at h; · exact hf _ h
  split at h; · cases h
  split at h
  · unfold lookupGlobal at h
    cases hg : StrMap.get s.globals x with
    | some w => simp only [hg] at h; cases h; rfl
    | none => simp only [hg] at h; cases h
  · cases hg : findPair ps x with
    | some w => rw [hg] at h; cases h; rfl
    | none => rw [hg] at h; cases h

theorem Agr.indexWith (get : Nat → Option (Except OverError Value)) (v : Value) (l c : Nat) :
    Agr k F O (indexWith get v l c) (indexWith get v l c) := by
  unfold Over.indexWith
  split
  · split
    · split
      · exact .pure _
      · exact .fail _
      · exact .panic
    · exact .fail _
  · exact .fail _

theorem Agr.checkDuplicate (f : Str) (ft : FieldType) (ps : List Pair) (par : Option Obj) (l c : Nat) :
    Agr k F O (checkDuplicate f ft ps par l c) (checkDuplicate f ft ps par l c) := by
  intro s hs
  refine ⟨rfl, fun a s' h => ?_⟩
  cases ft <;> simp only [Over.checkDuplicate] at h <;> split at h <;> cases h <;> exact hs

theorem Agr.storeField (f : Str) (ft : FieldType) (v : Value) (ps : List Pair) (par : Option Obj) (l c : Nat) :
    Agr k F O (storeField f ft v ps par l c) (storeField f ft v ps par l c) := by
  cases ft with
  | global => exact fun s hs => ⟨rfl, fun a s' h => by cases h; exact ⟨hs.chains, hs.file, hs.opened⟩⟩
  | parent =>
    simp only [Over.storeField]
    cases v.getObj with
    | ok o => exact .pure _
    | error e => exact .fail _
  | regular => exact .pure _

theorem Agr.arrStep (t : Ty) (b : Bool) (v : Value) (l c : Nat) : Agr k F O (arrStep t b v l c) (arrStep t b v l c) := by
  unfold Over.arrStep
  cases arrTypeStep t b v.getType with
  | some r => exact .pure _
  | none => exact .fail _

theorem Agr.includeKeyword (v : Value) (l c : Nat) : Agr k F O (includeKeyword v l c) (includeKeyword v l c) := by
  unfold Over.includeKeyword
  split
  · refine .bind (.forceSentinel _) fun _ => .ite (fun _ => .pure _) fun _ => ?_
    refine .bind (.forceSentinel _) fun _ => .ite (fun _ => .pure _) fun _ => ?_
    refine .bind (.forceSentinel _) fun _ => .ite (fun _ => .pure _) fun _ => ?_
    exact .bind (.forceSentinel _) fun _ => .ite (fun _ => .pure _) fun _ => .fail _
  · exact .pure _
  · exact .fail _

theorem Agr.includeClose : Agr k F O includeClose includeClose := by
  refine .bind .findChar fun b => .ite (fun _ => .failEnd) fun _ => .bind .next fun x => ?_
  cases x with
  | none => exact .panic
  | some ch =>
    refine .ite (fun _ => .pure _) fun _ => .bind .getPos fun p => ?_
    cases usub p.col 1 with
    | some c => exact .fail _
    | none => exact .panic

/-- The depth is at most 64 behind the check. -/
theorem Agr.checkDepth {d : Nat} {f f' : Unit → P α} (h : d ≤ 64 → Agr k F O (f ()) (f' ())) :
    Agr k F O (Over.checkDepth d >>= f) (Over.checkDepth d >>= f') := by
  unfold Over.checkDepth
  by_cases hd : d > maxDepth
  · rw [if_pos hd]
    intro s hs
    exact ⟨rfl, fun _ _ h => by cases h⟩
  · rw [if_neg hd]
    exact h (Nat.le_of_not_lt hd)

/-! ## The measure -/

/-- The files being read, the present one included. -/
def inReading (fs : FS) (F : Option Str) (O : List Str) : List Str :=
  match F.bind fs.resolve with
  | some c => c :: O
  | none => O

/-- The present file is read once only. -/
def Once (fs : FS) (F : Option Str) (O : List Str) : Prop := ∀ c, F.bind fs.resolve = some c → c ∉ O

/-- Room for the calls at depth `d`. -/
def room (fs : FS) (k : Nat) (F : Option Str) (O : List Str) (d : Nat) : Nat :=
  fs.filesExcl (inReading fs F O) * (65 * (k + 2)) + (65 - d) * (k + 2)

theorem room_succ (fs : FS) (k : Nat) (F : Option Str) (O : List Str) {d : Nat} (h : d + 1 ≤ 64) :
    room fs k F O (d + 1) + (k + 2) = room fs k F O d := by
  unfold room
  rw [show 65 - d = (65 - (d + 1)) + 1 by omega, Nat.add_mul, Nat.one_mul, Nat.add_assoc]

theorem room_mono (fs : FS) (k : Nat) (F : Option Str) (O : List Str) (d : Nat) :
    room fs k F O (d + 1) ≤ room fs k F O d :=
  Nat.add_le_add_left (Nat.mul_le_mul_right _ (by omega)) _

theorem room_file (fs : FS) (k : Nat) {F F' : Option Str} {O O' : List Str} {d : Nat}
    (h : fs.filesExcl (inReading fs F' O') + 1 ≤ fs.filesExcl (inReading fs F O)) :
    room fs k F' O' 1 + (k + 2) ≤ room fs k F O d := by
  unfold room
  have h1 := Nat.mul_le_mul_right (65 * (k + 2)) h
  rw [Nat.add_mul, Nat.one_mul] at h1
  have h2 : (65 - 1) * (k + 2) + (k + 2) = 65 * (k + 2) := by omega
  omega

/-- With room for them, the calls of `pv` and `pv'` agree. -/
def PvAgr (fs : FS) (k n : Nat) (pv pv' : PV) : Prop :=
  ∀ F O, Once fs F O → ∀ ps l c d b,
    (room fs k F O d + (k + 2) ≤ n → Agr k F O (pv ps l c d b true) (pv' ps l c d b true)) ∧
    (∀ ch, room fs k F O d + ch + 1 ≤ n → AgrC k F O ch (pv ps l c d b false) (pv' ps l c d b false))

variable {fs : FS} {n : Nat} {pv pv' : PV}

theorem opLoop_agr (h : PvAgr fs k n pv pv') (ho : Once fs F O) {d : Nat} (hd : room fs k F O d + k + 1 ≤ n) (ps b) :
    ∀ m vals ops, Agr k F O (opLoop pv ps d b m vals ops) (opLoop pv' ps d b m vals ops)
  | 0, _, _ => .oof
  | m + 1, vals, ops => by
    unfold opLoop
    refine .bind .peek fun c => ?_
    cases c with
    | none => exact .pure _
    | some ch =>
      simp only
      cases getOp ch with
      | none => exact .pure _
      | some op =>
        refine .bind .next fun _ => .bind .peek fun c => ?_
        cases c with
        | none => exact .failEnd
        | some _ =>
          refine .bind .getPos fun p => .bind ((h F O ho _ _ _ _ _).2 k hd).all fun v => .ite (fun _ => ?_) fun _ => opLoop_agr h ho hd ps b m _ _
          cases popBack vals with
          | none => exact .panic
          | some x => exact .bind (.binaryOp _ _ _ _ _) fun _ => opLoop_agr h ho hd ps b m _ _

theorem parseOps_agr (h : PvAgr fs k n pv pv') (ho : Once fs F O) {d : Nat} (hd : room fs k F O d + k + 1 ≤ n) (ps b v l c) :
    Agr k F O (parseOps pv ps d b v l c) (parseOps pv' ps d b v l c) := by
  refine .bind (.bound fun m => opLoop_agr h ho hd ps b m _ _) fun x => .bind (.checkValueEnd _) fun _ => ?_
  obtain ⟨vals, ops⟩ := x
  cases vals with
  | nil => exact .panic
  | cons x xs => exact .foldOps _ _ _

/-- A sign. -/
theorem parseUnary_agr (h : PvAgr fs k n pv pv') (ho : Once fs F O) {d : Nat} (ps b) (op : UnOp) {s : PState} (hs : Ok k F O s)
    {cs : Str} {ch : Char} (he : s.stream.rest = ch :: cs) (hc : ch = '+' ∨ ch = '-') (hd : room fs k F O d + chainLen s.stream.rest ≤ n) :
    parseUnary pv ps d b op s = parseUnary pv' ps d b op s ∧ ∀ a s', parseUnary pv ps d b op s = .ok a s' → Ok k F O s' := by
  rw [he] at hd
  simp only [chainLen, if_pos hc] at hd
  have hn : nextP s = .ok (some ch) { s with stream := s.stream.next.2 } := by
    simp only [nextP, Stream.next, he]
  have hn2 : ({ s with stream := s.stream.next.2 } : PState).stream.rest = cs := by simp only [Stream.next, he]
  have hok : Ok k F O { s with stream := s.stream.next.2 } := (Agr.next s hs).2 _ _ hn
  unfold parseUnary
  simp only [Bind.bind, P.bind, hn]
  generalize ({ s with stream := s.stream.next.2 } : PState) = s1 at hn2 hok
  suffices hh : AgrC k F O (chainLen cs)
      (if (some ch = some '-' ∧ op = .minus) ∨ (some ch = some '+' ∧ op = .plus) then do
        let p ← getPos
        match ← peekP with
        | some _ => do
          let res ← pv ps p.line p.col (d + 1) b false
          unaryOp res op p.line p.col
        | none => fail (.unexpectedEnd p.line)
      else panicP)
      (if (some ch = some '-' ∧ op = .minus) ∨ (some ch = some '+' ∧ op = .plus) then do
        let p ← getPos
        match ← peekP with
        | some _ => do
          let res ← pv' ps p.line p.col (d + 1) b false
          unaryOp res op p.line p.col
        | none => fail (.unexpectedEnd p.line)
      else panicP) from hh s1 hok (by rw [hn2])
  by_cases hc : (some ch = some '-' ∧ op = .minus) ∨ (some ch = some '+' ∧ op = .plus)
  · rw [if_pos hc, if_pos hc]
    refine .getPos fun p => .peek fun x => ?_
    cases x with
    | none => exact (Agr.fail _).c _
    | some c =>
      have hr := room_mono fs k F O d
      exact .bind ((h F O ho ps _ _ (d + 1) b).2 (chainLen cs) (by omega)) fun a => .unaryOp _ _ _ _
  · rw [if_neg hc, if_neg hc]
    exact Agr.panic.c _

theorem lexVar_suf {r : Str} {p : Pos} {x : Str} {g : Bool} {dt : DotEnd} {r' : Str} {p' : Pos}
    (h : lexVar r p = .ok (x, g, dt) r' p') : r' <:+ r ∧ (dt ≠ .none → chainLen r' + 1 ≤ pathDots r ∧ NoSign r') := by
  cases r with
  | nil => cases h
  | cons ch cs =>
    simp only [lexVar] at h
    by_cases hc : (ch == '@') = true
    · rw [if_pos hc] at h
      cases hv : varGo cs (p.adv ch) [ch] with
      | ok y r2 p2 =>
        rw [hv] at h
        obtain ⟨y, d2⟩ := y
        cases h
        obtain ⟨h1, h2⟩ := varGo_suf _ _ _ hv
        refine ⟨h1.trans (List.suffix_cons _ _), fun hn => ⟨(h2 hn).1.trans ?_, (h2 hn).2⟩⟩
        have : ch ≠ '.' := by rw [beq_iff_eq] at hc; subst hc; decide
        simp only [pathDots, if_neg this]
        rw [if_pos (by simp [hc])]
      | err e => rw [hv] at h; cases h
      | panic => rw [hv] at h; cases h
    · rw [if_neg hc] at h
      cases hv : varGo (ch :: cs) p [] with
      | ok y r2 p2 =>
        rw [hv] at h
        obtain ⟨y, d2⟩ := y
        cases h
        exact varGo_suf _ _ _ hv
      | err e => rw [hv] at h; cases h
      | panic => rw [hv] at h; cases h

/-- A dotted path. -/
theorem parseVariable_agr (h : PvAgr fs k n pv pv') (ho : Once fs F O) (b) : ∀ (m : Nat) {d j : Nat} (ps l c)
    (hd : room fs k F O d + j ≤ n) (s : PState), Ok k F O s → NoSign s.stream.rest →
    chainLen s.stream.rest ≤ j →
    parseVariable pv m ps l c d b s = parseVariable pv' m ps l c d b s ∧ ∀ a s', parseVariable pv m ps l c d b s = .ok a s' → Ok k F O s'
  | 0, d, j, ps, l, c, hd, s, hs, hns, hj => ⟨rfl, fun _ _ h => by cases h⟩
  | m + 1, d, j, ps, l, c, hd, s, hs, hns, hj => by
    have hch : chainLen s.stream.rest = pathDots s.stream.rest := by
      cases hr : s.stream.rest with
      | nil => rfl
      | cons ch cs => simp only [chainLen, if_neg (hns _ _ hr)]
    unfold parseVariable
    simp only [Bind.bind, P.bind]
    cases hl : liftLex lexVar s with
    | err e => exact ⟨rfl, fun _ _ h => by cases h⟩
    | panic => exact ⟨rfl, fun _ _ h => by cases h⟩
    | oof => exact ⟨rfl, fun _ _ h => by cases h⟩
    | ok y s1 =>
      obtain ⟨x, g, dt⟩ := y
      have key : Ok k F O s1 ∧ (dt ≠ .none → chainLen s1.stream.rest + 1 ≤ j ∧ NoSign s1.stream.rest) := by
        simp only [liftLex] at hl
        cases hv : lexVar s.stream.rest s.stream.pos with
        | ok y r2 p2 =>
          rw [hv] at hl
          cases hl
          obtain ⟨h1, h2⟩ := lexVar_suf hv
          exact ⟨⟨hs.chains.suffix h1, hs.file, hs.opened⟩, fun hn => ⟨(h2 hn).1.trans (hch ▸ hj), (h2 hn).2⟩⟩
        | err e => rw [hv] at hl; cases hl
        | panic => rw [hv] at hl; cases hl
      obtain ⟨hs1, hc1⟩ := key
      simp only
      have hlk := Agr.lookupVar (k := k) (F := F) (O := O) ps x g l c s1 hs1
      cases hlv : lookupVar ps x g l c s1 with
      | err e => exact ⟨rfl, fun _ _ h => by cases h⟩
      | panic => exact ⟨rfl, fun _ _ h => by cases h⟩
      | oof => exact ⟨rfl, fun _ _ h => by cases h⟩
      | ok v s2 =>
        have hs2 := hlk.2 v s2 hlv
        have hstream : s2.stream = s1.stream := lookupVar_stream hlv
        have hr := room_mono fs k F O d
        cases dt with
        | none => exact Agr.pure v s2 hs2
        | dot | dotGlobal =>
          obtain ⟨hc2, hns1⟩ : chainLen s2.stream.rest + 1 ≤ j ∧ NoSign s2.stream.rest := by rw [hstream]; exact hc1 (by simp)
          cases v with
          | arr i t vs =>
            exact AgrC.getPos (fun p => .bind ((h F O ho ps _ _ (d + 1) b).2 (chainLen s2.stream.rest) (by omega)) fun ix => .indexWith _ _ _ _) s2 hs2 (Nat.le_refl _)
          | tup i t vs =>
            exact AgrC.getPos (fun p => .bind ((h F O ho ps _ _ (d + 1) b).2 (chainLen s2.stream.rest) (by omega)) fun ix => .indexWith _ _ _ _) s2 hs2 (Nat.le_refl _)
          | obj o =>
            simp only [P.bind, Over.getPos]
            first
              | exact Agr.fail _ s2 hs2
              | exact parseVariable_agr h ho b m (d := d + 1) (j := chainLen s2.stream.rest) _ _ _ (by omega) s2 hs2 hns1 (Nat.le_refl _)
          | _ => exact Agr.fail _ s2 hs2

/-! ## Containers -/

/-- There is room for the values of a container at this depth. -/
abbrev Room (fs : FS) (k n : Nat) (F : Option Str) (O : List Str) (d : Nat) : Prop := room fs k F O d + (k + 2) ≤ n

theorem parseFieldValuePair_agr (h : PvAgr fs k n pv pv') (ho : Once fs F O) {d : Nat} (hd : Room fs k n F O d) (ps par b) :
    Agr k F O (parseFieldValuePair pv ps par d b) (parseFieldValuePair pv' ps par d b) := by
  unfold parseFieldValuePair
  refine .bind .peek fun c => ?_
  cases c with
  | none => exact .panic
  | some ch =>
    refine .ite (fun _ => .bind .next fun _ => .pure _) fun _ => .ite (fun _ => .bind .getPos fun _ => .fail _) fun _ => ?_
    refine .bind .getPos fun fp => .bind (.lex fun r p => lexField_suf _ _ r p) ?_
    rintro ⟨field, ft⟩
    refine .bind (.checkDuplicate _ _ _ _ _ _) fun _ => .bind .findChar fun _ => .ite (fun _ => .failEnd) fun _ => ?_
    refine .bind .getPos fun vp => .bind ((h F O ho _ _ _ _ _).1 hd) fun v => .bind (.storeField _ _ _ _ _ _ _) ?_
    rintro ⟨ps, par⟩
    refine .bind .findChar fun _ => .ite (fun _ => ?_) fun _ => .pure _
    cases b with
    | none => exact .pure _
    | some _ => exact .failEnd

theorem fieldsLoop_agr (h : PvAgr fs k n pv pv') (ho : Once fs F O) {d : Nat} (hd : Room fs k n F O d) (b) :
    ∀ m ps par, Agr k F O (fieldsLoop pv d b m ps par) (fieldsLoop pv' d b m ps par)
  | 0, _, _ => .oof
  | m + 1, ps, par => by
    unfold fieldsLoop
    refine .bind (parseFieldValuePair_agr h ho hd _ _ _) ?_
    rintro ⟨more, ps, par⟩
    exact .ite (fun _ => fieldsLoop_agr h ho hd b m _ _) fun _ => .pure _

theorem parseObjStream_agr (h : PvAgr fs k n pv pv') (ho : Once fs F O) (hd : Room fs k n F O 1) :
    Agr k F O (parseObjStream pv) (parseObjStream pv') :=
  .bind .findChar fun _ => .ite (fun _ => .bind .genId fun _ => .pure _) fun _ =>
    .bind (.bound fun m => fieldsLoop_agr h ho hd _ m _ _) fun _ => .bind .genId fun _ => .pure _

theorem parseObj_agr (h : PvAgr fs k n pv pv') (ho : Once fs F O) {d : Nat} (hd : d ≤ 64 → Room fs k n F O d) :
    Agr k F O (parseObj pv d) (parseObj pv' d) :=
  .checkDepth fun hd64 => .bind (.expect _) fun _ => .bind .findChar fun _ => .ite (fun _ => .failEnd) fun _ =>
    .bind (.bound fun m => fieldsLoop_agr h ho (hd hd64) _ m _ _) fun _ => .bind .genId fun _ => .pure _

theorem arrLoop_agr (h : PvAgr fs k n pv pv') (ho : Once fs F O) {d : Nat} (hd : Room fs k n F O d) (ps) :
    ∀ m vec t f, Agr k F O (arrLoop pv ps d m vec t f) (arrLoop pv' ps d m vec t f)
  | 0, _, _, _ => .oof
  | m + 1, vec, t, f => by
    unfold arrLoop
    refine .bind .findChar fun _ => .ite (fun _ => .failEnd) fun _ => .bind .peek fun c => ?_
    cases c with
    | none => exact .panic
    | some ch =>
      refine .ite (fun _ => .bind .next fun _ => .pure _) fun _ => .ite (fun _ => .bind .getPos fun _ => .fail _) fun _ => ?_
      refine .bind .getPos fun vp => .bind ((h F O ho _ _ _ _ _).1 hd) fun v => .bind (.arrStep _ _ _ _ _) ?_
      rintro ⟨t, f⟩
      exact arrLoop_agr h ho hd ps m _ _ _

theorem parseArr_agr (h : PvAgr fs k n pv pv') (ho : Once fs F O) {d : Nat} (hd : d ≤ 64 → Room fs k n F O d) (ps) :
    Agr k F O (parseArr pv ps d) (parseArr pv' ps d) :=
  .checkDepth fun hd64 => .bind (.expect _) fun _ =>
    .bind (.bound fun m => arrLoop_agr h ho (hd hd64) _ m _ _ _) fun _ => .bind .genId fun _ => .pure _

theorem tupLoop_agr (h : PvAgr fs k n pv pv') (ho : Once fs F O) {d : Nat} (hd : Room fs k n F O d) (ps) :
    ∀ m vec, Agr k F O (tupLoop pv ps d m vec) (tupLoop pv' ps d m vec)
  | 0, _ => .oof
  | m + 1, vec => by
    unfold tupLoop
    refine .bind .findChar fun _ => .ite (fun _ => .failEnd) fun _ => .bind .peek fun c => ?_
    cases c with
    | none => exact .panic
    | some ch =>
      refine .ite (fun _ => .bind .next fun _ => .pure _) fun _ => .ite (fun _ => .bind .getPos fun _ => .fail _) fun _ => ?_
      exact .bind .getPos fun vp => .bind ((h F O ho _ _ _ _ _).1 hd) fun v => tupLoop_agr h ho hd ps m _

theorem parseTup_agr (h : PvAgr fs k n pv pv') (ho : Once fs F O) {d : Nat} (hd : d ≤ 64 → Room fs k n F O d) (ps) :
    Agr k F O (parseTup pv ps d) (parseTup pv' ps d) :=
  .checkDepth fun hd64 => .bind (.expect _) fun _ =>
    .bind (.bound fun m => tupLoop_agr h ho (hd hd64) _ m _) fun _ => .bind .genId fun _ => .pure _

/-! ## Files -/

theorem arrFileLoop_agr (h : PvAgr fs k n pv pv') (ho : Once fs F O) (hd : Room fs k n F O 1) :
    ∀ m vec t f, Agr k F O (arrFileLoop pv m vec t f) (arrFileLoop pv' m vec t f)
  | 0, _, _, _ => .oof
  | m + 1, vec, t, f => by
    unfold arrFileLoop
    refine .bind .findChar fun _ => .ite (fun _ => .pure _) fun _ => .bind .getPos fun vp => ?_
    refine .bind ((h F O ho _ _ _ _ _).1 hd) fun v => .bind (.arrStep _ _ _ _ _) ?_
    rintro ⟨t, f⟩
    exact arrFileLoop_agr h ho hd m _ _ _

theorem tupFileLoop_agr (h : PvAgr fs k n pv pv') (ho : Once fs F O) (hd : Room fs k n F O 1) :
    ∀ m vec, Agr k F O (tupFileLoop pv m vec) (tupFileLoop pv' m vec)
  | 0, _ => .oof
  | m + 1, vec => by
    unfold tupFileLoop
    refine .bind .findChar fun _ => .ite (fun _ => .pure _) fun _ => .bind .getPos fun vp => ?_
    exact .bind ((h F O ho _ _ _ _ _).1 hd) fun v => tupFileLoop_agr h ho hd m _

theorem parseFileBody_agr (h : PvAgr fs k n pv pv') (ho : Once fs F O) (hd : Room fs k n F O 1) :
    ∀ kd, Agr k F O (parseFileBody pv kd) (parseFileBody pv' kd)
  | .obj => .bind (parseObjStream_agr h ho hd) fun _ => .pure _
  | .arr => .bind (.bound fun m => arrFileLoop_agr h ho hd m _ _ _) fun _ => .bind .genId fun _ => .pure _
  | .tup => .bind (.bound fun m => tupFileLoop_agr h ho hd m _) fun _ => .bind .genId fun _ => .pure _
  | .str => .panic

/-- Reading another file from the present one: the files being read are the same again afterwards. -/
theorem loadCached_agr (hfs : fs.ChainsUpTo k) (h : PvAgr fs k n pv pv') {d : Nat} (hd : room fs k F O d ≤ n) {O' : List Str}
    {path full : Str} (hO : inReading fs F O = O') (hp : fs.resolve path = some full) (hf : full ∉ O') (kd : IncKind) :
    Agr k F O' (loadCached fs pv kd path full) (loadCached fs pv' kd path full) := by
  intro s hs
  simp only [loadCached]
  cases StrMap.get s.inc.cache full with
  | some v => exact ⟨rfl, fun _ _ h => by cases h; exact hs⟩
  | none =>
    have hl : Agr k F O' (loadFile fs pv kd path) (loadFile fs pv' kd path) := by
      unfold loadFile
      cases hr : fs.read path with
      | error m => exact .err _
      | ok text =>
        refine .ite (fun _ => .pure _) fun _ => ?_
        have hnode : StrMap.get fs.nodes full = some (.ok text) := by
          simp only [FS.read, hp] at hr
          cases hg : StrMap.get fs.nodes full with
          | some r => rw [hg] at hr; rw [← hr]
          | none => rw [hg] at hr; cases hr
        have hir : inReading fs (some path) O' = full :: O' := by simp [inReading, hp]
        have ho' : Once fs (some path) O' := by
          intro c hc
          simp only [Option.bind_some, hp] at hc
          cases hc
          exact hf
        have hroom : Room fs k n (some path) O' 1 :=
          (room_file fs k (d := d) (by rw [hir, hO]; exact FS.filesExcl_cons fs full O' hf _ hnode)).trans hd
        intro s1 hs1
        have hin : Ok k (some path) O' { s1 with stream := Stream.ofString (some path) text, globals := [] } :=
          ⟨hfs path text hr, rfl, hs1.opened⟩
        obtain ⟨e1, e2⟩ := parseFileBody_agr h ho' hroom kd _ hin
        simp only [inFile]
        rw [← e1]
        cases hb : parseFileBody pv kd { s1 with stream := Stream.ofString (some path) text, globals := [] } with
        | ok v s2 => exact ⟨rfl, fun _ _ h => by cases h; exact ⟨hs1.chains, hs1.file, (e2 _ _ hb).opened⟩⟩
        | err e => exact ⟨rfl, fun _ _ h => by cases h⟩
        | panic => exact ⟨rfl, fun _ _ h => by cases h⟩
        | oof => exact ⟨rfl, fun _ _ h => by cases h⟩
    obtain ⟨e1, e2⟩ := hl s hs
    simp only
    rw [← e1]
    cases hb : loadFile fs pv kd path s with
    | ok v s2 => exact ⟨rfl, fun _ _ h => by cases h; have := e2 _ _ hb; exact ⟨this.chains, this.file, this.opened⟩⟩
    | err e => exact ⟨rfl, fun _ _ h => by cases h⟩
    | panic => exact ⟨rfl, fun _ _ h => by cases h⟩
    | oof => exact ⟨rfl, fun _ _ h => by cases h⟩

theorem includeFileP_agr (hfs : fs.ChainsUpTo k) (h : PvAgr fs k n pv pv') (ho : Once fs F O) {d : Nat} (hd : room fs k F O d ≤ n)
    (kd : IncKind) (inc : Str) (l c : Nat) : Agr k F O (includeFileP fs pv kd inc l c) (includeFileP fs pv' kd inc l c) := by
  intro s hs
  have hres : ∀ s', resolveInclude fs inc l c s = s' → (∃ path full, s' = .ok (path, full) s ∧ fs.resolve path = some full) ∨
      (∃ e, s' = .err e) ∨ s' = .panic := by
    intro s' e
    subst e
    simp only [resolveInclude, Bind.bind, P.bind, Over.getFile]
    cases includeTarget s.stream.file inc with
    | none => exact .inr (.inr rfl)
    | some path =>
      simp only
      split
      · exact .inr (.inl ⟨_, rfl⟩)
      · cases hr : fs.resolve path with
        | none => exact .inr (.inl ⟨_, rfl⟩)
        | some full =>
          simp only
          split
          · exact .inr (.inl ⟨_, rfl⟩)
          · exact .inl ⟨path, full, rfl, hr⟩
  unfold includeFileP
  simp only [Bind.bind, P.bind]
  rcases hres _ rfl with ⟨path, full, e, hr⟩ | ⟨e', e⟩ | e
  · rw [e]
    simp only
    have hst : storeCurrent fs s = .panic ∨ ∃ s1, storeCurrent fs s = .ok (F.bind fs.resolve) s1 ∧ Ok k F (inReading fs F O) s1 := by
      simp only [storeCurrent, hs.file, hs.opened]
      cases F with
      | none => exact .inr ⟨s, rfl, hs.chains, hs.file, hs.opened⟩
      | some f =>
        simp only
        cases hf : fs.resolve f with
        | none => exact .inl rfl
        | some cur =>
          simp only
          have hno : O.contains cur = false := by
            have : cur ∉ O := ho cur (by simp [hf])
            simp [this]
          cases fs.utf8 cur with
          | true =>
            refine .inr ⟨{ s with inc := { s.inc with opened := cur :: O } }, ?_, hs.chains, hs.file, ?_⟩
            · rw [if_pos rfl, hno, Option.bind_some, hf]; rfl
            · simp [inReading, hf]
          | false => exact .inl rfl
    rcases hst with e1 | ⟨s1, e1, hs1⟩
    · rw [e1]; exact ⟨rfl, fun _ _ h => by cases h⟩
    · rw [e1]
      simp only [getOpened]
      by_cases hc : s1.inc.opened.contains full = true
      · rw [if_pos hc, if_pos hc]
        exact ⟨rfl, fun _ _ h => by cases h⟩
      · rw [if_neg hc, if_neg hc]
        have hf : full ∉ inReading fs F O := by rw [hs1.opened] at hc; simpa using hc
        obtain ⟨e2, e3⟩ := loadCached_agr hfs h hd rfl hr hf kd s1 hs1
        simp only [P.bind]
        rw [← e2]
        cases hb : loadCached fs pv kd path full s1 with
        | ok v s2 =>
          refine ⟨rfl, fun a s' h => ?_⟩
          have hs2 := e3 _ _ hb
          simp only [unstore] at h
          cases hcur : F.bind fs.resolve with
          | none =>
            rw [hcur] at h
            cases h
            exact ⟨hs2.chains, hs2.file, by simpa [inReading, hcur] using hs2.opened⟩
          | some cur =>
            rw [hcur] at h
            cases h
            refine ⟨hs2.chains, hs2.file, ?_⟩
            have hn := ho cur hcur
            have := hs2.opened
            simp only [inReading, hcur] at this
            simp only [this, List.filter_cons]
            rw [if_neg (by simp)]
            rw [List.filter_eq_self]
            intro g hg
            simp only [bne_iff_ne, ne_eq]
            rintro rfl
            exact hn hg
        | err e => exact ⟨rfl, fun _ _ h => by cases h⟩
        | panic => exact ⟨rfl, fun _ _ h => by cases h⟩
        | oof => exact ⟨rfl, fun _ _ h => by cases h⟩
  · rw [e]; exact ⟨rfl, fun _ _ h => by cases h⟩
  · rw [e]; exact ⟨rfl, fun _ _ h => by cases h⟩

theorem includePath_agr (h : PvAgr fs k n pv pv') (ho : Once fs F O) {d : Nat} (hd : Room fs k n F O d) (ps kw v p) :
    Agr k F O (includePath pv ps d kw v p) (includePath pv' ps d kw v p) := by
  cases kw with
  | none => exact .pure _
  | some _ =>
    exact .bind .findChar fun _ => .ite (fun _ => .failEnd) fun _ => .bind .getPos fun p => .bind ((h F O ho _ _ _ _ _).1 hd) fun _ => .pure _

theorem parseInclude_agr (hfs : fs.ChainsUpTo k) (h : PvAgr fs k n pv pv') (ho : Once fs F O) {d : Nat} (hd : d ≤ 64 → Room fs k n F O d) (ps) :
    Agr k F O (parseInclude fs pv ps d) (parseInclude fs pv' ps d) := by
  refine .checkDepth fun hd64 => .bind (.expect _) fun _ => .bind .findChar fun _ => .ite (fun _ => .failEnd) fun _ => ?_
  have hd := hd hd64
  refine .bind .getPos fun p => .bind ((h F O ho _ _ _ _ _).1 hd) fun v => .bind (.includeKeyword _ _ _) fun kw => ?_
  refine .bind (includePath_agr h ho hd _ _ _ _) ?_
  rintro ⟨v, p⟩
  refine .bind .includeClose fun _ => ?_
  cases v with
  | str inc => exact includeFileP_agr hfs h ho (d := d) (by omega) _ _ _ _
  | _ => exact .fail _

/-! ## The knot -/

theorem parseTerm_agr (hfs : fs.ChainsUpTo k) (h : PvAgr fs k n pv pv') (ho : Once fs F O) {d j : Nat} (hd : room fs k F O d + j ≤ n) (ps l c b) :
    AgrC k F O j (parseTerm fs pv ps l c d b) (parseTerm fs pv' ps l c d b) := by
  intro s hs hj
  have hb : d + 1 ≤ 64 → Room fs k n F O (d + 1) := fun hd64 => by
    have := room_succ fs k F O hd64
    simp only [Room]
    omega
  have hroom : room fs k F O d + chainLen s.stream.rest ≤ n := by omega
  unfold parseTerm
  simp only [Bind.bind, P.bind, peekP]
  have hpk : s.stream.peek = s.stream.rest.head? := by
    simp only [Stream.peek]
  cases hr : s.stream.rest with
  | nil =>
    rw [hpk, hr]
    exact Agr.panic s hs
  | cons ch cs =>
    rw [hpk, hr]
    simp only [List.head?_cons]
    by_cases h1 : ch = '"'; · rw [if_pos h1, if_pos h1]; exact Agr.parseStr s hs
    rw [if_neg h1, if_neg h1]
    by_cases h1 : ch = '{'; · rw [if_pos h1, if_pos h1]; exact parseObj_agr h ho hb s hs
    rw [if_neg h1, if_neg h1]
    by_cases h1 : ch = '['; · rw [if_pos h1, if_pos h1]; exact parseArr_agr h ho hb ps s hs
    rw [if_neg h1, if_neg h1]
    by_cases h1 : ch = '('; · rw [if_pos h1, if_pos h1]; exact parseTup_agr h ho hb ps s hs
    rw [if_neg h1, if_neg h1]
    by_cases h1 : ch = '<'; · rw [if_pos h1, if_pos h1]; exact parseInclude_agr hfs h ho hb ps s hs
    rw [if_neg h1, if_neg h1]
    by_cases h1 : ch = '+'; · rw [if_pos h1, if_pos h1]; exact parseUnary_agr h ho ps b _ hs hr (.inl h1) hroom
    rw [if_neg h1, if_neg h1]
    by_cases h2 : ch = '-'; · rw [if_pos h2, if_pos h2]; exact parseUnary_agr h ho ps b _ hs hr (.inr h2) hroom
    rw [if_neg h2, if_neg h2]
    by_cases h3 : isNumericChar ch = true; · rw [if_pos h3, if_pos h3]; exact Agr.parseNumeric _ _ s hs
    rw [if_neg h3, if_neg h3]
    by_cases h3 : (isValidFieldChar ch true || ch == '@') = true
    · rw [if_pos h3, if_pos h3]
      refine parseVariable_agr h ho b _ ps l c hroom s hs ?_ (Nat.le_refl _)
      intro ch' cs' e
      rw [hr] at e
      cases e
      exact fun h => h.elim h1 h2
    · rw [if_neg h3, if_neg h3]
      exact Agr.fail _ s hs

theorem parseValue_agr (hfs : fs.ChainsUpTo k) : ∀ n N, n ≤ N → PvAgr fs k n (parseValue fs n) (parseValue fs N)
  | 0, N, _ => fun F O ho ps l c d b => ⟨fun h => by omega, fun ch h => by omega⟩
  | n + 1, 0, h => by omega
  | n + 1, N + 1, h => by
    have ih := parseValue_agr hfs n N (by omega)
    intro F O ho ps l c d b
    refine ⟨fun hd => ?_, fun ch hd => ?_⟩
    · exact .bind (parseTerm_agr hfs ih ho (j := k) (by omega) ps l c b).all fun v => .ite (fun _ => parseOps_agr ih ho (by omega) ps b v l c) fun _ => .pure _
    · exact .bind (parseTerm_agr hfs ih ho (j := ch) (by omega) ps l c b) fun v => .ite (fun h => by cases h) fun _ => .pure _

end

end Over
