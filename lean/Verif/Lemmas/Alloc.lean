import Verif.Lemmas.Stack2

/-!
# How many ids a parse takes

Every id is paid for: with a character that has been read, with a file that has been read (each file is read once), or with a keyword that had
not been used before.
-/

set_option linter.unusedSectionVars false
set_option linter.unusedVariables false

namespace Over

/-- The size of a file. -/
def nodeSize : Except Str Str → Nat
  | .ok s => s.length
  | .error _ => 0

/-- The sizes of the files that are not excluded, and their number. -/
def filesCost (ex : Str → Bool) (nodes : List (Str × Except Str Str)) : Nat :=
  (nodes.map (fun e => if ex e.1 then 0 else nodeSize e.2 + 1)).sum

theorem filesCost_mono {ex ex' : Str → Bool} (h : ∀ c, ex c = true → ex' c = true) : ∀ nodes, filesCost ex' nodes ≤ filesCost ex nodes
  | [] => Nat.le_refl _
  | e :: l => by
    have := filesCost_mono h l
    simp only [filesCost, List.map_cons, List.sum_cons] at this ⊢
    by_cases h1 : ex e.1 = true
    · rw [if_pos h1, if_pos (h _ h1)]; omega
    · rw [if_neg h1]; split <;> omega

theorem filesCost_less {ex ex' : Str → Bool} (h : ∀ c, ex c = true → ex' c = true) {full : Str} (hf : ex full = false) (hf' : ex' full = true)
    {r : Except Str Str} : ∀ {nodes : List (Str × Except Str Str)}, (full, r) ∈ nodes → filesCost ex' nodes + (nodeSize r + 1) ≤ filesCost ex nodes
  | [], hm => by cases hm
  | e :: l, hm => by
    simp only [filesCost, List.map_cons, List.sum_cons]
    rcases List.mem_cons.1 hm with hm | hm
    · subst hm
      have := filesCost_mono h l
      simp only [filesCost] at this
      simp only [hf, hf', if_true, Bool.false_eq_true, if_false]
      omega
    · have := filesCost_less h hf hf' hm
      simp only [filesCost] at this
      by_cases h1 : ex e.1 = true
      · rw [if_pos h1, if_pos (h _ h1)]; omega
      · rw [if_neg h1]; split <;> omega

/-- Files that are being read or have been read. -/
def readBefore (O : List Str) (cache : StrMap Value) (c : Str) : Bool := O.contains c || (StrMap.get cache c).isSome

/-- The keywords that have not been used. -/
def unused (s : Shared) : Nat :=
  s.objS.isNone.toNat + s.strS.isNone.toNat + s.arrS.isNone.toNat + s.tupS.isNone.toNat

theorem unused_le (s : Shared) : unused s ≤ 4 := by
  have := Bool.toNat_le s.objS.isNone
  have := Bool.toNat_le s.strS.isNone
  have := Bool.toNat_le s.arrS.isNone
  have := Bool.toNat_le s.tupS.isNone
  unfold unused; omega

theorem unused_mono {s s' : Shared} (h : s.MovesOn s') : unused s' ≤ unused s := by
  have key : ∀ k, (s'.keyword k).isNone.toNat ≤ (s.keyword k).isNone.toNat := by
    intro k
    cases hk : s.keyword k with
    | none => exact Bool.toNat_le _
    | some i => simp [h.keeps k i hk]
  have h1 := key .obj
  have h2 := key .str
  have h3 := key .arr
  have h4 := key .tup
  simp only [Shared.keyword] at h1 h2 h3 h4
  unfold unused
  omega

/-- What has been paid, and what there is to pay with. -/
def bill (fs : FS) (F : Option Str) (O : List Str) (s : PState) : Nat :=
  s.rt.time + unused s.rt.toShared + s.stream.rest.length + filesCost (readBefore (inReading fs F O) s.inc.cache) fs.nodes

/-- When no other thread is running, the counter has moved on by the ids that were taken. -/
def Grown (r r' : Rt) : Prop := (∀ t sh, r.others t sh = sh) → r'.others = r.others ∧ r'.curId + r.time = r.curId + r'.time

theorem Grown.after {r r' : Rt} (h : Grown r r') {sh : Shared} (hs : sh.curId = r'.curId + 1) : Grown r (r'.after sh) := by
  intro ha
  obtain ⟨h1, h2⟩ := h ha
  refine ⟨h1, ?_⟩
  simp only [Rt.after, h1, ha, hs]
  omega

/-- The state while a file is read. -/
structure In (r : Rt) (F : Option Str) (O : List Str) (s : PState) : Prop where
  file : s.stream.file = F
  opened : s.inc.opened = O
  grown : Grown r s.rt

/-- With `n` more to pay with, `m` leaves `post`. -/
def Pays (r : Rt) (fs : FS) (F : Option Str) (O : List Str) {α : Type} (n : Nat) (m : P α) (post : α → Nat) : Prop :=
  ∀ s, In r F O s → ∀ a s', m s = .ok a s' → In r F O s' ∧ bill fs F O s' + post a ≤ bill fs F O s + n

section
variable [Unicode] {r : Rt} {fs : FS} {F : Option Str} {O : List Str} {α β : Type}

theorem Pays.bind {n : Nat} {m : P α} {f : α → P β} {p : α → Nat} {q : β → Nat} (h : Pays r fs F O n m p) (hf : ∀ a, Pays r fs F O (p a) (f a) q) :
    Pays r fs F O n (m >>= f) q := by
  intro s hs b s' hr
  simp only [Bind.bind, P.bind] at hr
  cases hm : m s with
  | ok a s1 =>
    rw [hm] at hr
    obtain ⟨h1, h2⟩ := h s hs a s1 hm
    obtain ⟨h3, h4⟩ := hf a s1 h1 b s' hr
    exact ⟨h3, by omega⟩
  | err e => rw [hm] at hr; cases hr
  | panic => rw [hm] at hr; cases hr
  | oof => rw [hm] at hr; cases hr

theorem Pays.mono {n n' : Nat} {m : P α} {p q : α → Nat} (h : Pays r fs F O n m p) (hn : n ≤ n') (hq : ∀ a, q a ≤ p a) : Pays r fs F O n' m q :=
  fun s hs a s' hr => ⟨(h s hs a s' hr).1, by have := (h s hs a s' hr).2; have := hq a; omega⟩

theorem Pays.keep {n : Nat} {m : P α} {p : α → Nat} (j : Nat) (h : Pays r fs F O n m p) : Pays r fs F O (n + j) m (fun a => p a + j) :=
  fun s hs a s' hr => ⟨(h s hs a s' hr).1, by have := (h s hs a s' hr).2; simp only; omega⟩

/-- … and keeps what it does not need. -/
theorem Pays.w {n : Nat} {m : P α} (h : Pays r fs F O 0 m fun _ => 0) : Pays r fs F O n m fun _ => n :=
  (h.keep n).mono (by omega) fun _ => by omega

theorem Pays.pure {n : Nat} (a : α) {p : α → Nat} (h : p a ≤ n) : Pays r fs F O n (pure a) p := by
  intro s hs a s' hr; cases hr; exact ⟨hs, by omega⟩

theorem Pays.fail {n : Nat} (e : Kind) {p : α → Nat} : Pays r fs F O n (fail e : P α) p := fun s hs a s' hr => by cases hr
theorem Pays.err {n : Nat} (e : ParseError) {p : α → Nat} : Pays r fs F O n (fun _ => .err e : P α) p := fun s hs a s' hr => by cases hr
theorem Pays.panic {n : Nat} {p : α → Nat} : Pays r fs F O n (panicP : P α) p := fun s hs a s' hr => by cases hr
theorem Pays.oof {n : Nat} {p : α → Nat} : Pays r fs F O n (oofP : P α) p := fun s hs a s' hr => by cases hr
theorem Pays.getPos : Pays r fs F O 0 getPos fun _ => 0 := fun s hs a s' hr => by cases hr; exact ⟨hs, Nat.le_refl _⟩
theorem Pays.getFile : Pays r fs F O 0 getFile fun _ => 0 := fun s hs a s' hr => by cases hr; exact ⟨hs, Nat.le_refl _⟩
theorem Pays.peek : Pays r fs F O 0 peekP fun _ => 0 := fun s hs a s' hr => by cases hr; exact ⟨hs, Nat.le_refl _⟩

theorem Pays.next : Pays r fs F O 0 nextP fun c => if c.isSome then 1 else 0 := by
  intro s hs a s' hr
  simp only [nextP] at hr
  cases hr
  refine ⟨⟨(next_suffix s.stream).2.trans hs.file, hs.opened, hs.grown⟩, ?_⟩
  obtain ⟨⟨fl, rest, pos⟩, gl, ic, rt⟩ := s
  cases rest with
  | nil => exact Nat.le_refl _
  | cons c cs => simp only [bill, Stream.next, Option.isSome_some, if_true, List.length_cons]; omega

theorem Pays.findChar : Pays r fs F O 0 findCharP fun _ => 0 := by
  intro s hs a s' hr
  simp only [findCharP] at hr
  cases hr
  refine ⟨⟨hs.file, hs.opened, hs.grown⟩, ?_⟩
  have := (findCharGo_suffix false s.stream.rest s.stream.pos).length_le
  simp only [bill]
  have e : s.stream.findChar.2.rest = (findCharGo false s.stream.rest s.stream.pos).2.1 := rfl
  rw [e]
  omega

theorem bill_after (s : PState) (sh : Shared) {n : Nat} (h : unused sh + 1 ≤ unused s.rt.toShared + n) :
    bill fs F O { s with rt := s.rt.after sh } ≤ bill fs F O s + n := by
  have := unused_mono (s.rt.moveOn s.rt.time sh)
  simp only [bill, Rt.after]
  omega

theorem Pays.genId : Pays r fs F O 1 genId fun _ => 0 := by
  intro s hs a s' hr
  cases hr
  exact ⟨⟨hs.file, hs.opened, hs.grown.after rfl⟩, bill_after s _ (Nat.le_refl _)⟩

theorem Pays.forceSentinel (kd : IncKind) : Pays r fs F O 0 (forceSentinel kd) fun _ => 0 := by
  intro s hs a s' hr
  cases kd <;> simp only [Over.forceSentinel] at hr <;> split at hr <;> cases hr <;>
    first
      | exact ⟨hs, Nat.le_refl _⟩
      | refine ⟨⟨hs.file, hs.opened, hs.grown.after rfl⟩, bill_after s _ ?_⟩
        simp only [unused, Option.isNone_some, Option.isNone_none, Bool.toNat_true, Bool.toNat_false, *]
        omega

theorem Pays.ite {c : Prop} [Decidable c] {n : Nat} {m m' : P α} {p : α → Nat} (h1 : c → Pays r fs F O n m p) (h2 : ¬ c → Pays r fs F O n m' p) :
    Pays r fs F O n (if c then m else m') p := by
  by_cases h : c
  · rw [if_pos h]; exact h1 h
  · rw [if_neg h]; exact h2 h

theorem Pays.bound {n : Nat} {f : Nat → P α} {p : α → Nat} (h : ∀ j, Pays r fs F O n (f j) p) : Pays r fs F O n (withBound f) p :=
  fun s hs => h _ s hs

theorem Pays.failEnd {n : Nat} {p : α → Nat} : Pays r fs F O n (failEnd : P α) p :=
  .bind (.mono .getPos (Nat.zero_le _) fun _ => Nat.zero_le _) fun _ => .fail _

theorem Pays.expect (c : Char) : Pays r fs F O 0 (expectP c) fun _ => 1 := by
  refine .bind .next fun x => ?_
  cases x with
  | none => exact .panic
  | some ch => exact .ite (fun _ => .pure _ (by simp)) (fun _ => .panic)

theorem Pays.lex {f : Str → Pos → Lex α} (h : ∀ r p, LexSuf r (f r p)) : Pays r fs F O 0 (liftLex f) fun _ => 0 := by
  intro s hs a s' hm
  simp only [liftLex] at hm
  have h1 := h s.stream.rest s.stream.pos
  cases hf : f s.stream.rest s.stream.pos with
  | ok b r p =>
    rw [hf] at hm h1
    cases hm
    have := List.IsSuffix.length_le h1
    exact ⟨⟨hs.file, hs.opened, hs.grown⟩, by simp only [bill]; omega⟩
  | err e => rw [hf] at hm; cases hm
  | panic => rw [hf] at hm; cases hm

theorem lexVar_lexSuf (r : Str) (p : Pos) : LexSuf r (lexVar r p) := by
  cases h : lexVar r p with
  | ok x r' p' => obtain ⟨x, g, dt⟩ := x; exact (lexVar_suf h).1
  | err e => trivial
  | panic => trivial

/-! ## The parts that do not call `parse_value` -/

theorem Pays.unaryOp (v : Value) (op : UnOp) (l c : Nat) : Pays r fs F O 0 (unaryOp v op l c) fun _ => 0 := by
  rw [unaryOp_eq]
  cases op <;> cases v <;> first | exact .fail _ | exact .pure _ (Nat.le_refl _)

theorem Pays.binaryOp (v w : Value) (op : BinOp) (l c : Nat) : Pays r fs F O 1 (binaryOp v w op l c) fun _ => 0 := by
  rw [binaryOp_eq]
  cases binSem op v w with
  | val v => exact .pure _ (Nat.zero_le _)
  | newArr t vs => exact .bind .genId fun _ => .pure _ (Nat.le_refl _)
  | bad t1 t2 => exact .fail _
  | divisionByZero => exact .fail _

theorem Pays.checkValueEnd (brace : Option Char) : Pays r fs F O 0 (checkValueEnd brace) fun _ => 0 := by
  refine .bind .peek fun c => ?_
  cases c with
  | none => exact .pure _ (Nat.le_refl _)
  | some ch =>
    exact .bind .getPos fun p => .ite (fun _ => .ite (fun _ => .fail _) fun _ => .pure _ (Nat.le_refl _)) fun _ => .fail _

theorem Pays.parseNumeric (l c : Nat) : Pays r fs F O 0 (parseNumeric l c) fun _ => 0 := by
  refine .bind (.lex fun r p => numGo_suf r p [] [] false false) ?_
  rintro ⟨s1, s2, dec⟩
  simp only
  cases numFinish s1 s2 dec with
  | val v => exact .pure _ (Nat.le_refl _)
  | invalid => exact .fail _
  | parseInt => exact .err _

theorem Pays.parseStr : Pays r fs F O 0 parseStr fun _ => 0 := .bind (.lex fun r p => lexStr_suf r p) fun _ => .pure _ (Nat.le_refl _)

theorem Pays.foldOps : ∀ (ops : List BinOp) (v : Value) (vs : List (Value × Nat × Nat)), Pays r fs F O ops.length (foldOps v vs ops) fun _ => 0
  | [], v, vs => by cases vs <;> exact .pure v (Nat.le_refl _)
  | op :: ops, v, [] => .panic
  | op :: ops, v, (w, l, c) :: vs => by
    refine .bind (m := Over.binaryOp v w op l c) (p := fun _ => ops.length) ?_ fun r => Pays.foldOps ops r vs
    have := Pays.keep (r := r) (fs := fs) (F := F) (O := O) ops.length (Pays.binaryOp v w op l c)
    exact this.mono (by simp only [List.length_cons]; omega) fun _ => by omega

theorem Pays.lookupVar (ps : List Pair) (x : Str) (g : Bool) (l c : Nat) : Pays r fs F O 0 (lookupVar ps x g l c) fun _ => 0 := by
  have z := Nat.le_refl 0
  have f : ∀ kd, Pays r fs F O 0 (do let i ← Over.forceSentinel kd; Pure.pure (.obj (Obj.empty i)) : P Value) fun _ => 0 :=
    fun kd => .bind (.forceSentinel _) fun _ => .pure _ z
  unfold Over.lookupVar
  refine .ite (fun _ => .pure _ z) fun _ => .ite (fun _ => .pure _ z) fun _ => .ite (fun _ => .pure _ z) fun _ => ?_
  refine .ite (fun _ => f _) fun _ => .ite (fun _ => f _) fun _ => .ite (fun _ => f _) fun _ => .ite (fun _ => f _) fun _ => ?_
  refine .ite (fun _ => .fail _) fun _ => .ite (fun _ => ?_) fun _ => ?_
  · intro s hs a s' h
    unfold lookupGlobal at h
    cases hg : StrMap.get s.globals x with
    | some v => simp only [hg] at h; cases h; exact ⟨hs, Nat.le_refl _⟩
    | none => simp only [hg] at h; cases h
  · cases findPair ps x with
    | some p => exact .pure _ z
    | none => exact .fail _

theorem Pays.indexWith (get : Nat → Option (Except OverError Value)) (v : Value) (l c : Nat) : Pays r fs F O 0 (indexWith get v l c) fun _ => 0 := by
  unfold Over.indexWith
  split
  · split
    · split
      · exact .pure _ (Nat.le_refl _)
      · exact .fail _
      · exact .panic
    · exact .fail _
  · exact .fail _

theorem Pays.checkDuplicate (f : Str) (ft : FieldType) (ps : List Pair) (par : Option Obj) (l c : Nat) :
    Pays r fs F O 0 (checkDuplicate f ft ps par l c) fun _ => 0 := by
  intro s hs a s' h
  cases ft <;> simp only [Over.checkDuplicate] at h <;> split at h <;> cases h <;> exact ⟨hs, Nat.le_refl _⟩

theorem Pays.storeField (f : Str) (ft : FieldType) (v : Value) (ps : List Pair) (par : Option Obj) (l c : Nat) :
    Pays r fs F O 0 (storeField f ft v ps par l c) fun _ => 0 := by
  cases ft with
  | global => exact fun s hs a s' h => by cases h; exact ⟨⟨hs.file, hs.opened, hs.grown⟩, Nat.le_refl _⟩
  | parent =>
    simp only [Over.storeField]
    cases v.getObj with
    | ok o => exact .pure _ (Nat.le_refl _)
    | error e => exact .fail _
  | regular => exact .pure _ (Nat.le_refl _)

theorem Pays.arrStep (t : Ty) (b : Bool) (v : Value) (l c : Nat) : Pays r fs F O 0 (arrStep t b v l c) fun _ => 0 := by
  unfold Over.arrStep
  cases arrTypeStep t b v.getType with
  | some r => exact .pure _ (Nat.le_refl _)
  | none => exact .fail _

theorem Pays.includeKeyword (v : Value) (l c : Nat) : Pays r fs F O 0 (includeKeyword v l c) fun _ => 0 := by
  have z := Nat.le_refl 0
  unfold Over.includeKeyword
  split
  · refine .bind (.forceSentinel _) fun _ => .ite (fun _ => .pure _ z) fun _ => ?_
    refine .bind (.forceSentinel _) fun _ => .ite (fun _ => .pure _ z) fun _ => ?_
    refine .bind (.forceSentinel _) fun _ => .ite (fun _ => .pure _ z) fun _ => ?_
    exact .bind (.forceSentinel _) fun _ => .ite (fun _ => .pure _ z) fun _ => .fail _
  · exact .pure _ z
  · exact .fail _

theorem Pays.includeClose : Pays r fs F O 0 includeClose fun _ => 0 := by
  refine .bind .findChar fun b => .ite (fun _ => .failEnd) fun _ => .bind .next fun x => ?_
  cases x with
  | none => exact .panic
  | some ch =>
    refine .ite (fun _ => .pure _ (Nat.zero_le _)) fun _ => .bind (p := fun _ => 0) (.mono .getPos (Nat.zero_le _) fun _ => Nat.le_refl _) fun p => ?_
    cases usub p.col 1 with
    | some c => exact .fail _
    | none => exact .panic

theorem Pays.checkDepth (d : Nat) : Pays r fs F O 0 (checkDepth d) fun _ => 0 :=
  .ite (fun _ => .bind .getPos fun _ => .fail _) fun _ => .pure _ (Nat.le_refl _)

/-! ## The parser -/

/-- The calls of `pv` pay for themselves. -/
def PvPays (r : Rt) (fs : FS) (pv : PV) : Prop := ∀ F O, Once fs F O → ∀ ps l c d b f, Pays r fs F O 0 (pv ps l c d b f) fun _ => 0

variable {pv : PV}

/-- … when there is something to read. -/
def PaysN (r : Rt) (fs : FS) (F : Option Str) (O : List Str) {α : Type} (n : Nat) (m : P α) (post : α → Nat) : Prop :=
  ∀ s, In r F O s → s.stream.rest ≠ [] → ∀ a s', m s = .ok a s' → In r F O s' ∧ bill fs F O s' + post a ≤ bill fs F O s + n

theorem Pays.n {n : Nat} {m : P α} {p : α → Nat} (h : Pays r fs F O n m p) : PaysN r fs F O n m p := fun s hs _ => h s hs

theorem Pays.peekN {n : Nat} {f : Option Char → P α} {p : α → Nat} (h : Pays r fs F O n (f none) p) (hf : ∀ c, PaysN r fs F O n (f (some c)) p) :
    Pays r fs F O n (peekP >>= f) p := by
  intro s hs a s' hr
  have hr' : f s.stream.rest.head? s = .ok a s' := hr
  cases hc : s.stream.rest with
  | nil => rw [hc] at hr'; exact h s hs a s' hr'
  | cons c cs => rw [hc] at hr'; exact hf c s hs (by rw [hc]; simp) a s' hr'

theorem PaysN.next {n : Nat} {f : Option Char → P α} {p : α → Nat} (h : ∀ c, Pays r fs F O (n + 1) (f c) p) : PaysN r fs F O n (nextP >>= f) p := by
  intro s hs hne a s' hr
  have h1 := (Pays.next (fs := fs) s hs s.stream.next.1 { s with stream := s.stream.next.2 } rfl)
  have h2 : s.stream.next.1.isSome = true := by
    cases hc : s.stream.rest with
    | nil => exact absurd hc hne
    | cons c cs => simp [Stream.next, hc]
  simp only [h2, if_true] at h1
  obtain ⟨h3, h4⟩ := h _ _ h1.1 a s' hr
  exact ⟨h3, by omega⟩

theorem opLoop_pays (h : PvPays r fs pv) (ho : Once fs F O) (ps d b) :
    ∀ m vals ops, Pays r fs F O ops.length (opLoop pv ps d b m vals ops) fun r => r.2.length
  | 0, _, _ => .oof
  | m + 1, vals, ops => by
    unfold opLoop
    refine .peekN (.pure _ (Nat.le_refl _)) fun ch => ?_
    simp only
    cases getOp ch with
    | none => exact (Pays.pure _ (Nat.le_refl _)).n
    | some op =>
      refine .next fun _ => .bind (.w .peek) fun c => ?_
      cases c with
      | none => exact .failEnd
      | some c =>
        refine .bind (.w .getPos) fun p => .bind (.w (h F O ho _ _ _ _ _ _)) fun v => .ite (fun _ => ?_) fun _ => ?_
        · cases popBack vals with
          | none => exact .panic
          | some x =>
            refine .bind (p := fun _ => ops.length) (.mono (.keep ops.length (.binaryOp _ _ _ _ _)) (by omega) fun _ => by omega) fun _ => opLoop_pays h ho ps d b m _ _
        · refine (opLoop_pays h ho ps d b m _ _).mono ?_ fun _ => Nat.le_refl _
          simp

theorem parseOps_pays (h : PvPays r fs pv) (ho : Once fs F O) (ps d b v l c) : Pays r fs F O 0 (parseOps pv ps d b v l c) fun _ => 0 := by
  refine .bind (p := fun r => r.2.length) (.bound fun m => opLoop_pays h ho ps d b m _ []) fun x => .bind (.w (.checkValueEnd _)) fun _ => ?_
  obtain ⟨vals, ops⟩ := x
  cases vals with
  | nil => exact .panic
  | cons x xs => exact .foldOps _ _ _

theorem parseUnary_pays (h : PvPays r fs pv) (ho : Once fs F O) (ps d b op) : Pays r fs F O 0 (parseUnary pv ps d b op) fun _ => 0 := by
  refine .bind (p := fun _ => 0) (.mono .next (Nat.le_refl _) fun _ => Nat.zero_le _) fun c => .ite (fun _ => ?_) fun _ => .panic
  refine .bind .getPos fun p => .bind .peek fun c => ?_
  cases c with
  | none => exact .fail _
  | some _ => exact .bind (h F O ho _ _ _ _ _ _) fun _ => .unaryOp _ _ _ _

theorem parseVariable_pays (h : PvPays r fs pv) (ho : Once fs F O) : ∀ m ps l c d b, Pays r fs F O 0 (parseVariable pv m ps l c d b) fun _ => 0
  | 0, _, _, _, _, _ => .oof
  | m + 1, ps, l, c, d, b => by
    unfold parseVariable
    refine .bind (.lex lexVar_lexSuf) ?_
    rintro ⟨x, g, dt⟩
    refine .bind (.lookupVar _ _ _ _ _) fun v => ?_
    cases dt with
    | none => exact .pure _ (Nat.le_refl _)
    | dot | dotGlobal =>
      cases v with
      | arr i t vs => exact .bind .getPos fun p => .bind (h F O ho _ _ _ _ _ _) fun _ => .indexWith _ _ _ _
      | tup i t vs => exact .bind .getPos fun p => .bind (h F O ho _ _ _ _ _ _) fun _ => .indexWith _ _ _ _
      | obj o => exact .bind .getPos fun p => .ite (fun _ => .fail _) fun _ => parseVariable_pays h ho m _ _ _ _ _
      | _ => exact .fail _

theorem parseFieldValuePair_pays (h : PvPays r fs pv) (ho : Once fs F O) (ps par d b) :
    Pays r fs F O 0 (parseFieldValuePair pv ps par d b) fun _ => 0 := by
  have z := Nat.le_refl 0
  unfold parseFieldValuePair
  refine .bind .peek fun c => ?_
  cases c with
  | none => exact .panic
  | some ch =>
    refine .ite (fun _ => .bind (p := fun _ => 0) (.mono .next z fun _ => Nat.zero_le _) fun _ => .pure _ z) fun _ => .ite (fun _ => .bind .getPos fun _ => .fail _) fun _ => ?_
    refine .bind .getPos fun fp => .bind (.lex fun r p => lexField_suf _ _ r p) ?_
    rintro ⟨field, ft⟩
    refine .bind (.checkDuplicate _ _ _ _ _ _) fun _ => .bind .findChar fun _ => .ite (fun _ => .failEnd) fun _ => ?_
    refine .bind .getPos fun vp => .bind (h F O ho _ _ _ _ _ _) fun v => .bind (.storeField _ _ _ _ _ _ _) ?_
    rintro ⟨ps, par⟩
    refine .bind .findChar fun _ => .ite (fun _ => ?_) fun _ => .pure _ z
    cases b with
    | none => exact .pure _ z
    | some _ => exact .failEnd

theorem fieldsLoop_pays (h : PvPays r fs pv) (ho : Once fs F O) (d b) : ∀ m ps par, Pays r fs F O 0 (fieldsLoop pv d b m ps par) fun _ => 0
  | 0, _, _ => .oof
  | m + 1, ps, par => by
    unfold fieldsLoop
    refine .bind (parseFieldValuePair_pays h ho _ _ _ _) ?_
    rintro ⟨more, ps, par⟩
    exact .ite (fun _ => fieldsLoop_pays h ho d b m _ _) fun _ => .pure _ (Nat.le_refl _)

theorem Pays.newId (f : Nat → α) : Pays r fs F O 1 (do let i ← Over.genId; Pure.pure (f i)) fun _ => 0 :=
  .bind .genId fun _ => .pure _ (Nat.le_refl _)

theorem parseObjStream_pays (h : PvPays r fs pv) (ho : Once fs F O) : Pays r fs F O 1 (parseObjStream pv) fun _ => 0 :=
  .bind (.w .findChar) fun _ => .ite (fun _ => .newId _) fun _ =>
    .bind (.w (.bound fun m => fieldsLoop_pays h ho _ _ m _ _)) fun _ => .newId _

theorem parseObj_pays (h : PvPays r fs pv) (ho : Once fs F O) (d) : Pays r fs F O 0 (parseObj pv d) fun _ => 0 :=
  .bind (.checkDepth _) fun _ => .bind (.expect _) fun _ => .bind (.w .findChar) fun _ => .ite (fun _ => .failEnd) fun _ =>
    .bind (.w (.bound fun m => fieldsLoop_pays h ho _ _ m _ _)) fun _ => .newId _

theorem arrLoop_pays (h : PvPays r fs pv) (ho : Once fs F O) (ps d) : ∀ m vec t f, Pays r fs F O 0 (arrLoop pv ps d m vec t f) fun _ => 0
  | 0, _, _, _ => .oof
  | m + 1, vec, t, f => by
    have z := Nat.le_refl 0
    unfold arrLoop
    refine .bind .findChar fun _ => .ite (fun _ => .failEnd) fun _ => .bind .peek fun c => ?_
    cases c with
    | none => exact .panic
    | some ch =>
      refine .ite (fun _ => .bind (p := fun _ => 0) (.mono .next z fun _ => Nat.zero_le _) fun _ => .pure _ z) fun _ => .ite (fun _ => .bind .getPos fun _ => .fail _) fun _ => ?_
      refine .bind .getPos fun vp => .bind (h F O ho _ _ _ _ _ _) fun v => .bind (.arrStep _ _ _ _ _) ?_
      rintro ⟨t, f⟩
      exact arrLoop_pays h ho ps d m _ _ _

theorem parseArr_pays (h : PvPays r fs pv) (ho : Once fs F O) (ps d) : Pays r fs F O 0 (parseArr pv ps d) fun _ => 0 :=
  .bind (.checkDepth _) fun _ => .bind (.expect _) fun _ =>
    .bind (.w (.bound fun m => arrLoop_pays h ho _ _ m _ _ _)) fun _ => .newId _

theorem tupLoop_pays (h : PvPays r fs pv) (ho : Once fs F O) (ps d) : ∀ m vec, Pays r fs F O 0 (tupLoop pv ps d m vec) fun _ => 0
  | 0, _ => .oof
  | m + 1, vec => by
    have z := Nat.le_refl 0
    unfold tupLoop
    refine .bind .findChar fun _ => .ite (fun _ => .failEnd) fun _ => .bind .peek fun c => ?_
    cases c with
    | none => exact .panic
    | some ch =>
      refine .ite (fun _ => .bind (p := fun _ => 0) (.mono .next z fun _ => Nat.zero_le _) fun _ => .pure _ z) fun _ => .ite (fun _ => .bind .getPos fun _ => .fail _) fun _ => ?_
      exact .bind .getPos fun vp => .bind (h F O ho _ _ _ _ _ _) fun v => tupLoop_pays h ho ps d m _

theorem parseTup_pays (h : PvPays r fs pv) (ho : Once fs F O) (ps d) : Pays r fs F O 0 (parseTup pv ps d) fun _ => 0 :=
  .bind (.checkDepth _) fun _ => .bind (.expect _) fun _ =>
    .bind (.w (.bound fun m => tupLoop_pays h ho _ _ m _)) fun _ => .newId _

/-! ## Files -/

theorem arrFileLoop_pays (h : PvPays r fs pv) (ho : Once fs F O) : ∀ m vec t f, Pays r fs F O 0 (arrFileLoop pv m vec t f) fun _ => 0
  | 0, _, _, _ => .oof
  | m + 1, vec, t, f => by
    unfold arrFileLoop
    refine .bind .findChar fun _ => .ite (fun _ => .pure _ (Nat.le_refl _)) fun _ => .bind .getPos fun vp => ?_
    refine .bind (h F O ho _ _ _ _ _ _) fun v => .bind (.arrStep _ _ _ _ _) ?_
    rintro ⟨t, f⟩
    exact arrFileLoop_pays h ho m _ _ _

theorem tupFileLoop_pays (h : PvPays r fs pv) (ho : Once fs F O) : ∀ m vec, Pays r fs F O 0 (tupFileLoop pv m vec) fun _ => 0
  | 0, _ => .oof
  | m + 1, vec => by
    unfold tupFileLoop
    refine .bind .findChar fun _ => .ite (fun _ => .pure _ (Nat.le_refl _)) fun _ => .bind .getPos fun vp => ?_
    exact .bind (h F O ho _ _ _ _ _ _) fun v => tupFileLoop_pays h ho m _

theorem parseFileBody_pays (h : PvPays r fs pv) (ho : Once fs F O) : ∀ kd, Pays r fs F O 1 (parseFileBody pv kd) fun _ => 0
  | .obj => .bind (parseObjStream_pays h ho) fun _ => .pure _ (Nat.le_refl _)
  | .arr => .bind (.w (.bound fun m => arrFileLoop_pays h ho m _ _ _)) fun _ => .newId _
  | .tup => .bind (.w (.bound fun m => tupFileLoop_pays h ho m _)) fun _ => .newId _
  | .str => .panic

theorem StrMap.get_insert_isSome {β : Type} (m : StrMap β) (k c : Str) (v : β) :
    (StrMap.get (StrMap.insert m k v) c).isSome = (k == c || (StrMap.get m c).isSome) := by
  unfold StrMap.get StrMap.insert
  rw [List.find?_cons]
  cases hk : (k == c) <;> simp

/-- Reading another file from the present one: it has not been read before. -/
theorem loadCached_pays (h : PvPays r fs pv) {path full : Str} (hp : fs.resolve path = some full) (hf : full ∉ inReading fs F O) (kd : IncKind)
    {s s' : PState} (hs : In r F (inReading fs F O) s) {v : Value} (hr : loadCached fs pv kd path full s = .ok v s') :
    In r F (inReading fs F O) s' ∧ bill fs F O s' ≤ bill fs F O s := by
  simp only [loadCached] at hr
  cases hc : StrMap.get s.inc.cache full with
  | some w => rw [hc] at hr; cases hr; exact ⟨hs, Nat.le_refl _⟩
  | none =>
    rw [hc] at hr
    simp only at hr
    cases hl : loadFile fs pv kd path s with
    | err e => rw [hl] at hr; cases hr
    | panic => rw [hl] at hr; cases hr
    | oof => rw [hl] at hr; cases hr
    | ok w s1 =>
      rw [hl] at hr
      cases hr
      unfold loadFile at hl
      cases hrd : fs.read path with
      | error m => rw [hrd] at hl; cases hl
      | ok text =>
        rw [hrd] at hl
        simp only at hl
        have hnode : (full, Except.ok text) ∈ fs.nodes := by
          simp only [FS.read, hp] at hrd
          cases hg : StrMap.get fs.nodes full with
          | some r => rw [hg] at hrd; simp only at hrd; rw [hrd] at hg; exact StrMap.get_mem hg
          | none => rw [hg] at hrd; cases hrd
        by_cases hk : kd = .str
        · rw [if_pos hk] at hl
          cases hl
          refine ⟨⟨hs.file, hs.opened, hs.grown⟩, ?_⟩
          have : ∀ x : Value, filesCost (readBefore (inReading fs F O) (StrMap.insert s.inc.cache full x)) fs.nodes ≤
              filesCost (readBefore (inReading fs F O) s.inc.cache) fs.nodes := by
            intro x
            refine filesCost_mono (fun c hc => ?_) _
            simp only [readBefore, StrMap.get_insert_isSome, Bool.or_eq_true] at hc ⊢
            tauto
          exact Nat.add_le_add_left (this _) _
        · rw [if_neg hk] at hl
          have hir : inReading fs (some path) (inReading fs F O) = full :: inReading fs F O := by simp [inReading, hp]
          have ho' : Once fs (some path) (inReading fs F O) := by
            intro c hc
            simp only [Option.bind_some, hp] at hc
            cases hc
            exact hf
          simp only [inFile] at hl
          have hin : In r (some path) (inReading fs F O) { s with stream := Stream.ofString (some path) text, globals := [] } := ⟨rfl, hs.opened, hs.grown⟩
          cases hb : parseFileBody pv kd { s with stream := Stream.ofString (some path) text, globals := [] } with
          | err e => rw [hb] at hl; cases hl
          | panic => rw [hb] at hl; cases hl
          | oof => rw [hb] at hl; cases hl
          | ok w2 s2 =>
            rw [hb] at hl
            cases hl
            obtain ⟨h1, h2⟩ := parseFileBody_pays h ho' kd _ hin _ _ hb
            refine ⟨⟨hs.file, h1.opened, h1.grown⟩, ?_⟩
            simp only [bill, hir, Stream.ofString] at h2
            have e1 : ∀ x : Value, filesCost (readBefore (inReading fs F O) (StrMap.insert s2.inc.cache full x)) fs.nodes ≤
                filesCost (readBefore (full :: inReading fs F O) s2.inc.cache) fs.nodes := by
              intro x
              refine filesCost_mono (fun c hc => ?_) _
              simp only [readBefore, StrMap.get_insert_isSome, Bool.or_eq_true, List.contains_cons, beq_iff_eq] at hc ⊢
              rcases hc with (hc | hc) | hc
              · exact .inr (.inl hc.symm)
              · exact .inl hc
              · exact .inr (.inr hc)
            have e2 : filesCost (readBefore (full :: inReading fs F O) s.inc.cache) fs.nodes + (nodeSize (.ok text) + 1) ≤
                filesCost (readBefore (inReading fs F O) s.inc.cache) fs.nodes := by
              refine filesCost_less (full := full) (fun c hc => ?_) ?_ ?_ hnode
              · simp only [readBefore, Bool.or_eq_true, List.contains_cons] at hc ⊢
                tauto
              · simp [readBefore, hf, hc]
              · simp [readBefore]
            simp only [nodeSize] at e2
            refine (Nat.add_le_add_left (e1 _) _).trans ?_
            simp only [bill]
            omega

theorem includeFileP_pays (h : PvPays r fs pv) (ho : Once fs F O) (kd : IncKind) (inc : Str) (l c : Nat) :
    Pays r fs F O 0 (includeFileP fs pv kd inc l c) fun _ => 0 := by
  intro s hs a s' hr
  have hres : ∀ s', resolveInclude fs inc l c s = s' → (∃ path full, s' = .ok (path, full) s ∧ fs.resolve path = some full) ∨
      (∃ e, s' = .err e) ∨ s' = .panic := by
    intro s' e
    subst e
    simp only [resolveInclude, Bind.bind, P.bind, Over.getFile]
    cases includeTarget s.stream.file inc with
    | none => exact .inr (.inr rfl)
    | some path =>
      simp only
      split
      · exact .inr (.inl ⟨_, rfl⟩)
      · cases hr : fs.resolve path with
        | none => exact .inr (.inl ⟨_, rfl⟩)
        | some full =>
          simp only
          split
          · exact .inr (.inl ⟨_, rfl⟩)
          · exact .inl ⟨path, full, rfl, hr⟩
  unfold includeFileP at hr
  simp only [Bind.bind, P.bind] at hr
  rcases hres _ rfl with ⟨path, full, e, hrs⟩ | ⟨e', e⟩ | e
  · rw [e] at hr
    simp only at hr
    have hst : storeCurrent fs s = .panic ∨ ∃ s1, storeCurrent fs s = .ok (F.bind fs.resolve) s1 ∧ In r F (inReading fs F O) s1 ∧ bill fs F O s1 = bill fs F O s := by
      simp only [storeCurrent, hs.file, hs.opened]
      cases F with
      | none => exact .inr ⟨s, rfl, ⟨hs.file, hs.opened, hs.grown⟩, rfl⟩
      | some f =>
        simp only
        cases hf : fs.resolve f with
        | none => exact .inl rfl
        | some cur =>
          simp only
          have hno : O.contains cur = false := by
            have : cur ∉ O := ho cur (by simp [hf])
            simp [this]
          cases fs.utf8 cur with
          | true =>
            refine .inr ⟨{ s with inc := { s.inc with opened := cur :: O } }, ?_, ⟨hs.file, ?_, hs.grown⟩, rfl⟩
            · rw [if_pos rfl, hno, Option.bind_some, hf]; rfl
            · simp [inReading, hf]
          | false => exact .inl rfl
    rcases hst with e1 | ⟨s1, e1, hs1, hb1⟩
    · rw [e1] at hr; cases hr
    · rw [e1] at hr
      simp only [getOpened] at hr
      by_cases hc : s1.inc.opened.contains full = true
      · rw [if_pos hc] at hr
        cases hr
      · rw [if_neg hc] at hr
        have hf : full ∉ inReading fs F O := by rw [hs1.opened] at hc; simpa using hc
        simp only [P.bind] at hr
        cases hb : loadCached fs pv kd path full s1 with
        | err e => rw [hb] at hr; cases hr
        | panic => rw [hb] at hr; cases hr
        | oof => rw [hb] at hr; cases hr
        | ok v s2 =>
          rw [hb] at hr
          obtain ⟨hs2, hb2⟩ := loadCached_pays h hrs hf kd hs1 hb
          simp only [unstore] at hr
          cases hcur : F.bind fs.resolve with
          | none =>
            rw [hcur] at hr
            cases hr
            exact ⟨⟨hs2.file, by simpa [inReading, hcur] using hs2.opened, hs2.grown⟩, by rw [← hb1]; exact hb2⟩
          | some cur =>
            rw [hcur] at hr
            cases hr
            have hn := ho cur hcur
            refine ⟨⟨hs2.file, ?_, hs2.grown⟩, by rw [← hb1]; exact hb2⟩
            have := hs2.opened
            simp only [inReading, hcur] at this
            simp only [this, List.filter_cons]
            rw [if_neg (by simp)]
            rw [List.filter_eq_self]
            intro g hg
            simp only [bne_iff_ne, ne_eq]
            rintro rfl
            exact hn hg
  · rw [e] at hr; cases hr
  · rw [e] at hr; cases hr

theorem includePath_pays (h : PvPays r fs pv) (ho : Once fs F O) (ps d kw v p) : Pays r fs F O 0 (includePath pv ps d kw v p) fun _ => 0 := by
  cases kw with
  | none => exact .pure _ (Nat.le_refl _)
  | some _ =>
    exact .bind .findChar fun _ => .ite (fun _ => .failEnd) fun _ => .bind .getPos fun p => .bind (h F O ho _ _ _ _ _ _) fun _ => .pure _ (Nat.le_refl _)

theorem parseInclude_pays (h : PvPays r fs pv) (ho : Once fs F O) (ps d) : Pays r fs F O 0 (parseInclude fs pv ps d) fun _ => 0 := by
  refine .bind (.checkDepth _) fun _ => .bind (p := fun _ => 0) (.mono (.expect _) (Nat.le_refl _) fun _ => Nat.zero_le _) fun _ => ?_
  refine .bind .findChar fun _ => .ite (fun _ => .failEnd) fun _ => ?_
  refine .bind .getPos fun p => .bind (h F O ho _ _ _ _ _ _) fun v => .bind (.includeKeyword _ _ _) fun kw => ?_
  refine .bind (includePath_pays h ho _ _ _ _ _) ?_
  rintro ⟨v, p⟩
  refine .bind .includeClose fun _ => ?_
  cases v with
  | str inc => exact includeFileP_pays h ho _ _ _ _
  | _ => exact .fail _

theorem parseTerm_pays (h : PvPays r fs pv) (ho : Once fs F O) (ps l c d b) : Pays r fs F O 0 (parseTerm fs pv ps l c d b) fun _ => 0 := by
  refine .bind .peek fun x => ?_
  cases x with
  | none => exact .panic
  | some ch =>
    refine .ite (fun _ => .parseStr) fun _ => .ite (fun _ => parseObj_pays h ho _) fun _ => .ite (fun _ => parseArr_pays h ho _ _) fun _ => ?_
    refine .ite (fun _ => parseTup_pays h ho _ _) fun _ => .ite (fun _ => parseInclude_pays h ho _ _) fun _ => ?_
    refine .ite (fun _ => parseUnary_pays h ho _ _ _ _) fun _ => .ite (fun _ => parseUnary_pays h ho _ _ _ _) fun _ => ?_
    refine .ite (fun _ => .parseNumeric _ _) fun _ => .ite (fun _ => .bound fun m => parseVariable_pays h ho m _ _ _ _ _) fun _ => .fail _

theorem parseValue_pays (r : Rt) (fs : FS) : ∀ n, PvPays r fs (parseValue fs n)
  | 0 => fun F O ho ps l c d b f => .oof
  | n + 1 => by
    have ih := parseValue_pays r fs n
    intro F O ho ps l c d b f
    exact .bind (parseTerm_pays ih ho ps l c d b) fun v => .ite (fun _ => parseOps_pays ih ho ps d b v l c) fun _ => .pure _ (Nat.le_refl _)

end

end Over
