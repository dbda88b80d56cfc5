import Verif.Model.World
import Verif.Spec.World
import Verif.Lemmas.Fuel
import Verif.Lemmas.Edit
import Verif.Lemmas.Globals

/-!
# A changing file system and a snapshot of it
-/

set_option linter.unusedSectionVars false

namespace Over

/-- `m` changes neither the include bookkeeping nor the file of the stream. -/
def Silent {α : Type} (m : P α) : Prop := ∀ s a s', m s = .ok a s' → s'.inc = s.inc ∧ s'.stream.file = s.stream.file

theorem Silent.pure {α : Type} (a : α) : Silent (Pure.pure a : P α) := by intro s b s' h; cases h; exact ⟨rfl, rfl⟩
theorem Silent.fail {α : Type} (k : Kind) : Silent (fail k : P α) := by intro s b s' h; cases h
theorem Silent.panic {α : Type} : Silent (panicP : P α) := by intro s b s' h; cases h
theorem Silent.oof {α : Type} : Silent (oofP : P α) := by intro s b s' h; cases h
theorem Silent.err {α : Type} (e : ParseError) : Silent (fun _ => .err e : P α) := by intro s b s' h; cases h
theorem Silent.bind {α β : Type} {m : P α} {k : α → P β} (hm : Silent m) (hk : ∀ a, Silent (k a)) : Silent (m >>= k) := by
  intro s b s' h
  simp only [Bind.bind, P.bind] at h
  cases e : m s with
  | ok a s1 =>
    rw [e] at h
    obtain ⟨h1, h2⟩ := hm _ _ _ e
    obtain ⟨h3, h4⟩ := hk _ _ _ _ h
    exact ⟨h3.trans h1, h4.trans h2⟩
  | err _ => rw [e] at h; cases h
  | panic => rw [e] at h; cases h
  | oof => rw [e] at h; cases h
theorem Silent.ite {α : Type} {c : Prop} [Decidable c] {m n : P α} (h1 : Silent m) (h2 : Silent n) : Silent (if c then m else n) := by
  split <;> assumption
theorem Silent.bound {α : Type} {f : Nat → P α} (h : ∀ n, Silent (f n)) : Silent (withBound f) := fun s => h _ s
theorem silent_getPos : Silent getPos := by intro s b s' h; cases h; exact ⟨rfl, rfl⟩
theorem silent_getFile : Silent getFile := by intro s b s' h; cases h; exact ⟨rfl, rfl⟩
theorem silent_peekP : Silent peekP := by intro s b s' h; cases h; exact ⟨rfl, rfl⟩
theorem silent_nextP : Silent nextP := by
  intro s b s' h
  cases h
  refine ⟨rfl, ?_⟩
  show s.stream.next.2.file = _
  unfold Stream.next
  split <;> rfl
theorem silent_findCharP : Silent findCharP := by
  intro s b s' h
  cases h
  refine ⟨rfl, ?_⟩
  show s.stream.findChar.2.file = _
  unfold Stream.findChar
  rfl
theorem silent_genId : Silent genId := by intro s b s' h; cases h; exact ⟨rfl, rfl⟩
theorem silent_getOpened : Silent getOpened := by intro s b s' h; cases h; exact ⟨rfl, rfl⟩
theorem silent_forceSentinel (k) : Silent (forceSentinel k) := by
  intro s b s' h
  cases k <;> simp only [forceSentinel] at h <;> split at h <;> cases h <;> exact ⟨rfl, rfl⟩
theorem silent_liftLex {α : Type} (f : Str → Pos → Lex α) : Silent (liftLex f) := by
  intro s b s' h
  simp only [liftLex] at h
  split at h
  · cases h; exact ⟨rfl, rfl⟩
  · cases h
  · cases h
theorem silent_lookupGlobal (v l c) : Silent (lookupGlobal v l c) := by
  intro s b s' h
  simp only [lookupGlobal] at h
  split at h
  · cases h; exact ⟨rfl, rfl⟩
  · cases h
theorem silent_checkDuplicate (a b c d e f) : Silent (checkDuplicate a b c d e f) := by
  intro s x s' h
  simp only [checkDuplicate] at h
  cases b <;> simp only at h <;> split at h <;> cases h <;> exact ⟨rfl, rfl⟩
theorem silent_setGlobal {α : Type} (a : α) (field value) :
    Silent (fun s => .ok a { s with globals := StrMap.insert s.globals field value } : P α) := by
  intro s b s' h; cases h; exact ⟨rfl, rfl⟩

/-- Structural steps. -/
syntax "silent_steps" : tactic
macro_rules
  | `(tactic| silent_steps) => `(tactic| repeat' (first
      | exact Silent.pure _
      | exact Silent.fail _
      | exact Silent.panic
      | exact Silent.oof
      | exact Silent.err _
      | exact silent_getPos
      | exact silent_getFile
      | exact silent_peekP
      | exact silent_nextP
      | exact silent_findCharP
      | exact silent_genId
      | exact silent_forceSentinel _
      | exact silent_liftLex _
      | exact silent_lookupGlobal _ _ _
      | exact silent_checkDuplicate _ _ _ _ _ _
      | exact silent_setGlobal _ _ _
      | apply_assumption
      | (refine Silent.bind ?_ (fun _ => ?_))
      | (refine Silent.ite ?_ ?_)
      | (refine Silent.bound (fun _ => ?_))
      | split))

theorem silent_expectP (c) : Silent (expectP c) := by unfold expectP; silent_steps
theorem silent_failEnd {α : Type} : Silent (failEnd : P α) := by unfold failEnd; silent_steps
theorem silent_unwrapInt (v) : Silent (unwrapInt v) := by unfold unwrapInt; silent_steps
theorem silent_unwrapFrac (v) : Silent (unwrapFrac v) := by unfold unwrapFrac; silent_steps
theorem silent_unwrapStr (v) : Silent (unwrapStr v) := by unfold unwrapStr; silent_steps
theorem silent_unwrapArr (v) : Silent (unwrapArr v) := by unfold unwrapArr; silent_steps
theorem silent_unaryOp (a b c d) : Silent (unaryOp a b c d) := by
  have := silent_unwrapInt; have := silent_unwrapFrac
  cases b <;> simp only [unaryOp] <;> silent_steps
theorem silent_promote (a b) : Silent (promote a b) := by
  have := silent_unwrapInt
  unfold promote; silent_steps
theorem silent_binaryOp (a b c d e) : Silent (binaryOp a b c d e) := by
  have := silent_unwrapInt; have := silent_unwrapFrac; have := silent_unwrapStr; have := silent_unwrapArr; have := silent_promote
  cases c <;> simp only [binaryOp, opPlus, opMinus, opMult, opDiv, opMod] <;>
  silent_steps
theorem silent_checkValueEnd (b) : Silent (checkValueEnd b) := by unfold checkValueEnd; silent_steps
theorem silent_parseNumeric (l c) : Silent (parseNumeric l c) := by unfold parseNumeric; silent_steps
theorem silent_parseStr : Silent parseStr := by unfold parseStr; silent_steps
theorem silent_foldOps : ∀ v vs ops, Silent (foldOps v vs ops)
  | _, _, [] => by unfold foldOps; silent_steps
  | _, [], _ :: _ => by unfold foldOps; silent_steps
  | _, (_, _, _) :: vs, _ :: ops => by
    unfold foldOps
    exact Silent.bind (silent_binaryOp _ _ _ _ _) fun _ => silent_foldOps _ _ _
theorem silent_lookupVar (a b c d e) : Silent (lookupVar a b c d e) := by unfold lookupVar; silent_steps
theorem silent_indexWith (a b c d) : Silent (indexWith a b c d) := by unfold indexWith; silent_steps
theorem silent_storeField (a b c d e f g) : Silent (storeField a b c d e f g) := by unfold storeField; silent_steps
theorem silent_checkDepth (d) : Silent (checkDepth d) := by unfold checkDepth; silent_steps
theorem silent_arrStep (a b c d e) : Silent (arrStep a b c d e) := by unfold arrStep; silent_steps
theorem silent_includeKeyword (a b c) : Silent (includeKeyword a b c) := by unfold includeKeyword; silent_steps
theorem silent_includeClose : Silent includeClose := by
  have := @silent_failEnd Unit
  unfold includeClose; silent_steps


/-! ## Snapshots -/

/-- Contents of files that have been read. -/
abbrev Seen := Str → Option (Except Str Str)

/-- A file that has been read completely, or is being read. -/
def KnownFile (fs : FS) (s : PState) (c : Str) : Prop :=
  (StrMap.get s.inc.cache c).isSome = true ∨ c ∈ s.inc.opened ∨ ∃ f, s.stream.file = some f ∧ fs.resolve f = some c

/-- The file system `f` is like `fs`, and the files that have been seen are what they were. -/
def Agrees (fs : FS) (K : Seen) (f : FS) : Prop := fs.SameTree f ∧ ∀ c x, K c = some x → StrMap.get f.nodes c = some x

/-- What `m` does is what `mS` does in every file system with the files that `m` has read. -/
def Snap (fs : FS) (V : Str → Except Str Str → Prop) {α : Type} (m : P α) (mS : FS → P α) : Prop :=
  ∀ s (K : Seen), (∀ c x, K c = some x → KnownFile fs s c ∧ V c x) → ∃ K' : Seen, (∀ c x, K c = some x → K' c = some x) ∧
    (∀ c x, K' c = some x → V c x) ∧ (∀ f, Agrees fs K' f → mS f s = m s) ∧
    ∀ a s', m s = .ok a s' → s'.stream.file = s.stream.file ∧ ∀ c x, K' c = some x → KnownFile fs s' c

section
variable {fs : FS} {V : Str → Except Str Str → Prop}

theorem Snap.silent {α : Type} {m : P α} (h : Silent m) : Snap fs V m (fun _ => m) := by
  intro s K hK
  refine ⟨K, fun _ _ h => h, fun c x h => (hK c x h).2, fun _ _ => rfl, fun a s' e => ?_⟩
  obtain ⟨h1, h2⟩ := h _ _ _ e
  refine ⟨h2, fun c x hc => ?_⟩
  have := (hK c x hc).1
  unfold KnownFile at this ⊢
  rw [h1, h2]
  exact this

theorem Snap.bind {α β : Type} {m : P α} {mS : FS → P α} {k : α → P β} {kS : FS → α → P β} (hm : Snap fs V m mS)
    (hk : ∀ a, Snap fs V (k a) (fun f => kS f a)) : Snap fs V (m >>= k) (fun f => mS f >>= kS f) := by
  intro s K hK
  obtain ⟨K1, h1, h2, h3, h4⟩ := hm s K hK
  cases e : m s with
  | ok a s1 =>
    obtain ⟨h5, h6⟩ := h4 a s1 e
    obtain ⟨K2, g1, g2, g3, g4⟩ := hk a s1 K1 fun c x hc => ⟨h6 c x hc, h2 c x hc⟩
    refine ⟨K2, fun c x hc => g1 c x (h1 c x hc), g2, fun f hf => ?_, fun b s2 hb => ?_⟩
    · have := h3 f ⟨hf.1, fun c x hc => hf.2 c x (g1 c x hc)⟩
      show P.bind (mS f) (kS f) s = P.bind m k s
      unfold P.bind
      rw [this, e]
      exact g3 f hf
    · have hb' : P.bind m k s = .ok b s2 := hb
      unfold P.bind at hb'
      rw [e] at hb'
      obtain ⟨i1, i2⟩ := g4 b s2 hb'
      exact ⟨i1.trans h5, i2⟩
  | err e' =>
    refine ⟨K1, h1, h2, fun f hf => ?_, fun b s2 hb => ?_⟩
    · show P.bind (mS f) (kS f) s = P.bind m k s
      unfold P.bind
      rw [h3 f hf, e]
    · have hb' : P.bind m k s = .ok b s2 := hb
      unfold P.bind at hb'
      rw [e] at hb'
      cases hb'
  | panic =>
    refine ⟨K1, h1, h2, fun f hf => ?_, fun b s2 hb => ?_⟩
    · show P.bind (mS f) (kS f) s = P.bind m k s
      unfold P.bind
      rw [h3 f hf, e]
    · have hb' : P.bind m k s = .ok b s2 := hb
      unfold P.bind at hb'
      rw [e] at hb'
      cases hb'
  | oof =>
    refine ⟨K1, h1, h2, fun f hf => ?_, fun b s2 hb => ?_⟩
    · show P.bind (mS f) (kS f) s = P.bind m k s
      unfold P.bind
      rw [h3 f hf, e]
    · have hb' : P.bind m k s = .ok b s2 := hb
      unfold P.bind at hb'
      rw [e] at hb'
      cases hb'

theorem Snap.ite {α : Type} {c : Prop} [Decidable c] {m n : P α} {mS nS : FS → P α} (h1 : Snap fs V m mS) (h2 : Snap fs V n nS) :
    Snap fs V (if c then m else n) (fun f => if c then mS f else nS f) := by
  by_cases h : c
  · simpa [h] using h1
  · simpa [h] using h2

theorem Snap.bound {α : Type} {m : Nat → P α} {mS : FS → Nat → P α} (h : ∀ n, Snap fs V (m n) (fun f => mS f n)) :
    Snap fs V (withBound m) (fun f => withBound (mS f)) := fun s K hK => h _ s K hK

/-- `pvS` is `pv` in a snapshot. -/
@[reducible] def PvSnap (fs : FS) (V : Str → Except Str Str → Prop) (pv : PV) (pvS : FS → PV) : Prop :=
  ∀ a b c d e f, Snap fs V (pv a b c d e f) (fun g => pvS g a b c d e f)

/-- Structural steps. -/
syntax "snap_steps" : tactic
macro_rules
  | `(tactic| snap_steps) => `(tactic| repeat' (first
      | (refine Snap.silent ?_; first
          | exact silent_peekP | exact silent_nextP | exact silent_findCharP | exact silent_getPos | exact silent_genId | exact Silent.pure _
          | exact Silent.fail _ | exact Silent.panic | exact Silent.oof | exact silent_failEnd | exact silent_liftLex _
          | exact silent_lookupVar _ _ _ _ _ | exact silent_indexWith _ _ _ _ | exact silent_storeField _ _ _ _ _ _ _
          | exact silent_checkDepth _ | exact silent_arrStep _ _ _ _ _ | exact silent_includeKeyword _ _ _ | exact silent_includeClose
          | exact silent_expectP _ | exact silent_unaryOp _ _ _ _ | exact silent_binaryOp _ _ _ _ _ | exact silent_checkValueEnd _
          | exact silent_parseNumeric _ _ | exact silent_parseStr | exact silent_foldOps _ _ _ | exact silent_checkDuplicate _ _ _ _ _ _
          | exact silent_getOpened)
      | apply_assumption
      | (refine Snap.bind ?_ (fun _ => ?_))
      | (refine Snap.ite ?_ ?_)
      | (refine Snap.bound (fun _ => ?_))
      | split))

variable {pv : PV} {pvS : FS → PV}

theorem opLoop_snap (h : PvSnap fs V pv pvS) (ps d b) : ∀ n vals ops,
    Snap fs V (opLoop pv ps d b n vals ops) (fun f => opLoop (pvS f) ps d b n vals ops) := by
  intro n
  induction n with
  | zero => intro _ _; exact Snap.silent Silent.oof
  | succ n ih => intro vals ops; unfold opLoop; snap_steps

theorem parseOps_snap (h : PvSnap fs V pv pvS) (ps d b v l c) :
    Snap fs V (parseOps pv ps d b v l c) (fun f => parseOps (pvS f) ps d b v l c) := by
  have := opLoop_snap h
  unfold parseOps; snap_steps

theorem parseUnary_snap (h : PvSnap fs V pv pvS) (ps d b op) :
    Snap fs V (parseUnary pv ps d b op) (fun f => parseUnary (pvS f) ps d b op) := by
  unfold parseUnary; snap_steps

variable [Unicode]

theorem parseVariable_snap (h : PvSnap fs V pv pvS) : ∀ n ps l c d b,
    Snap fs V (parseVariable pv n ps l c d b) (fun f => parseVariable (pvS f) n ps l c d b) := by
  intro n
  induction n with
  | zero => intro _ _ _ _ _; exact Snap.silent Silent.oof
  | succ n ih =>
    intro ps l c d b
    unfold parseVariable
    refine Snap.bind (Snap.silent (silent_liftLex _)) ?_
    rintro ⟨x, g, dt⟩
    refine Snap.bind (Snap.silent (silent_lookupVar _ _ _ _ _)) fun v => ?_
    cases dt with
    | none => exact Snap.silent (Silent.pure _)
    | dot | dotGlobal =>
      cases v with
      | arr _ _ _ => exact Snap.bind (Snap.silent silent_getPos) fun _ => Snap.bind (h _ _ _ _ _ _) fun _ => Snap.silent (silent_indexWith _ _ _ _)
      | tup _ _ _ => exact Snap.bind (Snap.silent silent_getPos) fun _ => Snap.bind (h _ _ _ _ _ _) fun _ => Snap.silent (silent_indexWith _ _ _ _)
      | obj o => exact Snap.bind (Snap.silent silent_getPos) fun _ => Snap.ite (Snap.silent (Silent.fail _)) (ih _ _ _ _ _)
      | _ => exact Snap.silent (Silent.fail _)

theorem parseFieldValuePair_snap (h : PvSnap fs V pv pvS) (ps par d b) :
    Snap fs V (parseFieldValuePair pv ps par d b) (fun f => parseFieldValuePair (pvS f) ps par d b) := by
  unfold parseFieldValuePair; snap_steps

theorem fieldsLoop_snap (h : PvSnap fs V pv pvS) (d b) : ∀ n ps par,
    Snap fs V (fieldsLoop pv d b n ps par) (fun f => fieldsLoop (pvS f) d b n ps par) := by
  have := parseFieldValuePair_snap h
  intro n
  induction n with
  | zero => intro _ _; exact Snap.silent Silent.oof
  | succ n ih => intro ps par; unfold fieldsLoop; snap_steps

theorem parseObjStream_snap (h : PvSnap fs V pv pvS) : Snap fs V (parseObjStream pv) (fun f => parseObjStream (pvS f)) := by
  have := fieldsLoop_snap h
  unfold parseObjStream; snap_steps

theorem parseObj_snap (h : PvSnap fs V pv pvS) (d) : Snap fs V (parseObj pv d) (fun f => parseObj (pvS f) d) := by
  have := fieldsLoop_snap h
  unfold parseObj; snap_steps

theorem arrLoop_snap (h : PvSnap fs V pv pvS) (ps d) : ∀ n v t a,
    Snap fs V (arrLoop pv ps d n v t a) (fun f => arrLoop (pvS f) ps d n v t a) := by
  intro n
  induction n with
  | zero => intro _ _ _; exact Snap.silent Silent.oof
  | succ n ih => intro v t a; unfold arrLoop; snap_steps

theorem parseArr_snap (h : PvSnap fs V pv pvS) (ps d) : Snap fs V (parseArr pv ps d) (fun f => parseArr (pvS f) ps d) := by
  have := arrLoop_snap h
  unfold parseArr; snap_steps

theorem tupLoop_snap (h : PvSnap fs V pv pvS) (ps d) : ∀ n v,
    Snap fs V (tupLoop pv ps d n v) (fun f => tupLoop (pvS f) ps d n v) := by
  intro n
  induction n with
  | zero => intro _; exact Snap.silent Silent.oof
  | succ n ih => intro v; unfold tupLoop; snap_steps

theorem parseTup_snap (h : PvSnap fs V pv pvS) (ps d) : Snap fs V (parseTup pv ps d) (fun f => parseTup (pvS f) ps d) := by
  have := tupLoop_snap h
  unfold parseTup; snap_steps

theorem arrFileLoop_snap (h : PvSnap fs V pv pvS) : ∀ n v t a,
    Snap fs V (arrFileLoop pv n v t a) (fun f => arrFileLoop (pvS f) n v t a) := by
  intro n
  induction n with
  | zero => intro _ _ _; exact Snap.silent Silent.oof
  | succ n ih => intro v t a; unfold arrFileLoop; snap_steps

theorem tupFileLoop_snap (h : PvSnap fs V pv pvS) : ∀ n v,
    Snap fs V (tupFileLoop pv n v) (fun f => tupFileLoop (pvS f) n v) := by
  intro n
  induction n with
  | zero => intro _; exact Snap.silent Silent.oof
  | succ n ih => intro v; unfold tupFileLoop; snap_steps

theorem parseFileBody_snap (h : PvSnap fs V pv pvS) (k) : Snap fs V (parseFileBody pv k) (fun f => parseFileBody (pvS f) k) := by
  have := parseObjStream_snap h
  have := arrFileLoop_snap h
  have := tupFileLoop_snap h
  cases k <;> unfold parseFileBody <;> snap_steps

theorem includePath_snap (h : PvSnap fs V pv pvS) (ps d k v p) :
    Snap fs V (includePath pv ps d k v p) (fun f => includePath (pvS f) ps d k v p) := by
  unfold includePath; snap_steps

/-! ## Includes -/

theorem SameTree.isFile {f : FS} (h : fs.SameTree f) (p) : f.isFile p = fs.isFile p := by
  unfold FS.isFile
  rw [h.resolve]
  cases fs.resolve p with
  | none => rfl
  | some c => exact h.files c

theorem SameTree.resolveInclude {f : FS} (h : fs.SameTree f) (p l c) : resolveInclude f p l c = resolveInclude fs p l c := by
  unfold Over.resolveInclude
  simp only [SameTree.isFile h, h.resolve, h.utf8]

theorem SameTree.storeCurrent {f : FS} (h : fs.SameTree f) : storeCurrent f = storeCurrent fs := by
  funext s
  unfold Over.storeCurrent
  simp only [h.resolve, h.utf8]

theorem silent_resolveInclude (p l c) : Silent (resolveInclude fs p l c) := by
  unfold resolveInclude; silent_steps

variable {w : FSWorld} (hw : ∀ s, fs.SameTree (w s)) (hV : ∀ s c x, StrMap.get (w s).nodes c = some x → V c x)

omit [Unicode] in
theorem isSome_insert {α : Type} {m : StrMap α} {c k : Str} {v : α} (h : (StrMap.get m c).isSome = true) :
    (StrMap.get (StrMap.insert m k v) c).isSome = true := by
  by_cases e : c = k
  · rw [e, StrMap.get_insert_self]; rfl
  · rw [StrMap.get_insert_ne _ _ e]; exact h

include hw hV in
/-- Loading a file that is not being read. -/
theorem loadCached_snap (h : PvSnap fs V pv pvS) (kind : IncKind) {path full : Str} (h1 : fs.isFile path = true)
    (h2 : fs.resolve path = some full) (s : PState) (hn : full ∉ s.inc.opened) (K : Seen)
    (hK : ∀ c x, K c = some x → ((StrMap.get s.inc.cache c).isSome = true ∨ c ∈ s.inc.opened) ∧ V c x) :
    ∃ K' : Seen, (∀ c x, K c = some x → K' c = some x) ∧ (∀ c x, K' c = some x → V c x) ∧
      (∀ f, Agrees fs K' f → loadCached f (pvS f) kind path full s = loadCached (w s) pv kind path full s) ∧
      ∀ v s', loadCached (w s) pv kind path full s = .ok v s' → s'.stream = s.stream ∧
        ∀ c x, K' c = some x → (StrMap.get s'.inc.cache c).isSome = true ∨ c ∈ s'.inc.opened := by
  unfold loadCached
  cases e : StrMap.get s.inc.cache full with
  | some v => exact ⟨K, fun _ _ h => h, fun c x h => (hK c x h).2, fun _ _ => rfl, fun v' s' h => by
      cases h; exact ⟨rfl, fun c x hc => (hK c x hc).1⟩⟩
  | none =>
    simp only
    have hK0 : K full = none := by
      cases hk : K full with
      | none => rfl
      | some x =>
        rcases (hK full x hk).1 with h | h
        · rw [e] at h; cases h
        · exact absurd h hn
    have hsome : (StrMap.get (w s).nodes full).isSome = true := by
      rw [(hw s).files]
      simpa [FS.isFile, h2] using h1
    obtain ⟨x, hx⟩ := Option.isSome_iff_exists.1 hsome
    let K1 : Seen := fun c => if c = full then some x else K c
    have k1 : ∀ c y, K c = some y → K1 c = some y := fun c y hc => by
      have : c ≠ full := fun e' => by rw [e', hK0] at hc; cases hc
      simp only [K1, if_neg this, hc]
    have k2 : ∀ c y, K1 c = some y → (((StrMap.get s.inc.cache c).isSome = true ∨ c ∈ s.inc.opened) ∨ c = full) ∧ V c y := fun c y hc => by
      simp only [K1] at hc
      split at hc
      · rename_i e'
        cases hc
        exact ⟨.inr e', hV s c x (e' ▸ hx)⟩
      · exact ⟨.inl (hK c y hc).1, (hK c y hc).2⟩
    have hread : (w s).read path = x := by simp only [FS.read, (hw s).resolve, h2, hx]
    have hreadf : ∀ f, Agrees fs K1 f → f.read path = x := fun f hf => by
      have := hf.2 full x (by simp [K1])
      simp only [FS.read, hf.1.resolve, h2, this]
    cases x with
    | error m =>
      refine ⟨K1, k1, fun c y hc => (k2 c y hc).2, fun f hf => ?_, fun v s' hv => ?_⟩
      · simp only [loadFile, hread, hreadf f hf]
      · simp only [loadFile, hread] at hv; cases hv
    | ok t =>
      by_cases hk : kind = .str
      · refine ⟨K1, k1, fun c y hc => (k2 c y hc).2, fun f hf => ?_, fun v s' hv => ?_⟩
        · simp only [loadFile, hread, hreadf f hf, if_pos hk]
        · simp only [loadFile, hread, if_pos hk] at hv
          cases hv
          refine ⟨rfl, fun c y hc => ?_⟩
          rcases (k2 c y hc).1 with (hc | hc) | hc
          · left
            exact isSome_insert hc
          · exact .inr hc
          · left; subst hc
            simp [StrMap.get, StrMap.insert]
      · have hs := parseFileBody_snap h kind { s with stream := Stream.ofString (some path) t, globals := [] } K1 (fun c y hc => by
          refine ⟨?_, (k2 c y hc).2⟩
          rcases (k2 c y hc).1 with (hc | hc) | hc
          · exact .inl hc
          · exact .inr (.inl hc)
          · exact .inr (.inr ⟨path, rfl, by rw [h2, hc]⟩))
        obtain ⟨K2, g1, g2, g3, g4⟩ := hs
        refine ⟨K2, fun c y hc => g1 c y (k1 c y hc), g2, fun f hf => ?_, fun v s' hv => ?_⟩
        · have hf1 : Agrees fs K1 f := ⟨hf.1, fun c y hc => hf.2 c y (g1 c y hc)⟩
          simp only [loadFile, hread, hreadf f hf1, if_neg hk, inFile]
          have := g3 f hf
          simp only at this
          rw [this]
        · simp only [loadFile, hread, if_neg hk, inFile] at hv
          cases er : parseFileBody pv kind { s with stream := Stream.ofString (some path) t, globals := [] } with
          | ok v' s2 =>
            rw [er] at hv
            cases hv
            refine ⟨rfl, fun c y hc => ?_⟩
            obtain ⟨g5, g6⟩ := g4 _ _ er
            rcases g6 c y hc with h | h | ⟨p', h, h'⟩
            · left
              exact isSome_insert h
            · exact .inr h
            · left
              rw [g5] at h
              cases h
              have hc' : full = c := by rw [h2] at h'; exact Option.some.inj h'
              subst hc'
              simp [StrMap.get, StrMap.insert]
          | err _ => rw [er] at hv; cases hv
          | panic => rw [er] at hv; cases hv
          | oof => rw [er] at hv; cases hv

include hw hV in
theorem includeFile_snap (h : PvSnap fs V pv pvS) (kind p l c) :
    Snap fs V (includeFileW w pv kind p l c) (fun f => includeFileP f (pvS f) kind p l c) := by
  intro s K hK
  show ∃ K' : Seen, _ ∧ _ ∧ (∀ f, Agrees fs K' f → P.bind (resolveInclude f p l c) _ s = P.bind (nowP w fun f => resolveInclude f p l c) _ s) ∧
    ∀ a s', P.bind (nowP w fun f => resolveInclude f p l c) _ s = .ok a s' → _
  have hres : ∀ f, fs.SameTree f → resolveInclude f p l c = resolveInclude fs p l c := fun f hf => SameTree.resolveInclude hf p l c
  have base : ∀ c x, K c = some x → V c x := fun c x hc => (hK c x hc).2
  have hnow : (nowP w fun f => resolveInclude f p l c) s = resolveInclude fs p l c s := by rw [nowP, hres _ (hw s)]
  unfold P.bind
  simp only [hnow]
  cases e : resolveInclude fs p l c s with
  | err e' => exact ⟨K, fun _ _ h => h, base, fun f hf => by rw [hres f hf.1, e], fun _ _ h => by cases h⟩
  | panic => exact ⟨K, fun _ _ h => h, base, fun f hf => by rw [hres f hf.1, e], fun _ _ h => by cases h⟩
  | oof => exact ⟨K, fun _ _ h => h, base, fun f hf => by rw [hres f hf.1, e], fun _ _ h => by cases h⟩
  | ok x s' =>
    obtain ⟨path, full⟩ := x
    obtain ⟨rfl, h1, h2⟩ := resolveInclude_ok e
    suffices hsuf : ∃ K' : Seen, (∀ c x, K c = some x → K' c = some x) ∧ (∀ c x, K' c = some x → V c x) ∧
        (∀ f, Agrees fs K' f → P.bind (storeCurrent f) (fun stored => do
            let opened ← getOpened
            if opened.contains full then fail (.cyclicInclude p l c)
            else do
              let value ← loadCached f (pvS f) kind path full
              unstore stored
              pure value) s' = P.bind (nowP w storeCurrent) (fun stored => do
            let opened ← getOpened
            if opened.contains full then fail (.cyclicInclude p l c)
            else do
              let value ← nowP w fun f => loadCached f pv kind path full
              unstore stored
              pure value) s') ∧
        ∀ a s2, P.bind (nowP w storeCurrent) (fun stored => do
            let opened ← getOpened
            if opened.contains full then fail (.cyclicInclude p l c)
            else do
              let value ← nowP w fun f => loadCached f pv kind path full
              unstore stored
              pure value) s' = .ok a s2 → s2.stream.file = s'.stream.file ∧ ∀ c x, K' c = some x → KnownFile fs s2 c by
      obtain ⟨K', j1, j2, j3, j4⟩ := hsuf
      exact ⟨K', j1, j2, fun f hf => by rw [hres f hf.1, e]; exact j3 f hf, j4⟩
    have hst : ∀ f, fs.SameTree f → storeCurrent f = storeCurrent fs := fun f hf => SameTree.storeCurrent hf
    have hnow : nowP w storeCurrent s' = storeCurrent fs s' := by rw [nowP, hst _ (hw s')]
    unfold P.bind
    simp only [hnow]
    cases e1 : storeCurrent fs s' with
    | err e' => exact ⟨K, fun _ _ h => h, base, fun f hf => by rw [hst f hf.1, e1], fun _ _ h => by cases h⟩
    | panic => exact ⟨K, fun _ _ h => h, base, fun f hf => by rw [hst f hf.1, e1], fun _ _ h => by cases h⟩
    | oof => exact ⟨K, fun _ _ h => h, base, fun f hf => by rw [hst f hf.1, e1], fun _ _ h => by cases h⟩
    | ok st s3 =>
      have hs3 : s3.stream = s'.stream ∧ s3.inc.cache = s'.inc.cache ∧ (∀ c, c ∈ s'.inc.opened → c ∈ s3.inc.opened) ∧
          (∀ g F, s'.stream.file = some g → fs.resolve g = some F → st = some F ∧ F ∈ s3.inc.opened) ∧
          (∀ F, st = some F → ∃ g, s'.stream.file = some g ∧ fs.resolve g = some F) := by
        unfold storeCurrent at e1
        cases hf : s'.stream.file with
        | none =>
          rw [hf] at e1
          cases e1
          exact ⟨rfl, rfl, fun _ h => h, fun _ _ h => (by cases h), fun _ h => (by cases h)⟩
        | some g =>
          rw [hf] at e1
          simp only at e1
          cases hr : fs.resolve g with
          | none => rw [hr] at e1; cases e1
          | some F =>
            rw [hr] at e1
            simp only at e1
            split at e1
            · cases e1
              refine ⟨rfl, rfl, fun c' hc => ?_, fun g' F' hg hF => ?_, fun F' hF => ?_⟩
              · simp only
                split
                · exact hc
                · exact List.mem_cons_of_mem _ hc
              · cases hg
                rw [hr] at hF
                cases hF
                refine ⟨rfl, ?_⟩
                simp only
                split
                · rename_i h; simpa using h
                · exact List.mem_cons_self ..
              · cases hF
                exact ⟨g, rfl, hr⟩
            · cases e1
      obtain ⟨j1, j2, j3, j4, j5⟩ := hs3
      have hK3 : ∀ c x, K c = some x → ((StrMap.get s3.inc.cache c).isSome = true ∨ c ∈ s3.inc.opened) ∧ V c x := fun c' x hc => by
        refine ⟨?_, base c' x hc⟩
        rcases (hK c' x hc).1 with h | h | ⟨g, h, h'⟩
        · left; rw [j2]; exact h
        · exact .inr (j3 _ h)
        · exact .inr (j4 g c' h h').2
      simp only [bind, P.bind, getOpened]
      by_cases hc : s3.inc.opened.contains full = true
      · simp only [hc, if_true]
        exact ⟨K, fun _ _ h => h, base, fun f hf => by rw [hst f hf.1, e1]; simp only [hc, if_true], fun _ _ h => by cases h⟩
      · simp only [hc]
        obtain ⟨K', i1, i2, i3, i4⟩ := loadCached_snap hw hV h kind h1 h2 s3 (fun h => hc (by simpa using h)) K hK3
        refine ⟨K', i1, i2, fun f hf => ?_, fun a s2 ha => ?_⟩
        · rw [hst f hf.1, e1]
          simp only [hc, Bool.false_eq_true, if_false]
          have := i3 f hf
          show P.bind (loadCached f (pvS f) kind path full) _ s3 = P.bind (nowP w fun f => loadCached f pv kind path full) _ s3
          unfold P.bind nowP
          rw [this]
        · simp only [Bool.false_eq_true, if_false] at ha
          change P.bind (nowP w fun f => loadCached f pv kind path full) _ s3 = _ at ha
          unfold P.bind nowP at ha
          simp only [] at ha
          cases e4 : loadCached (w s3) pv kind path full s3 with
          | ok v s4 =>
            rw [e4] at ha
            obtain ⟨i5, i6⟩ := i4 v s4 e4
            simp only [unstore] at ha
            cases st with
            | none =>
              cases ha
              refine ⟨by rw [i5, j1], fun c' x hc' => ?_⟩
              rcases i6 c' x hc' with h | h
              · exact .inl h
              · exact .inr (.inl h)
            | some F =>
              cases ha
              refine ⟨by simp only [i5, j1], fun c' x hc' => ?_⟩
              rcases i6 c' x hc' with h | h
              · exact .inl h
              · by_cases hF : c' = F
                · obtain ⟨g, hg, hg'⟩ := j5 F rfl
                  refine .inr (.inr ⟨g, ?_, hF ▸ hg'⟩)
                  simp only [i5, j1]
                  exact hg
                · refine .inr (.inl ?_)
                  simp only [List.mem_filter]
                  exact ⟨h, by simpa using hF⟩
          | err _ => rw [e4] at ha; cases ha
          | panic => rw [e4] at ha; cases ha
          | oof => rw [e4] at ha; cases ha

include hw hV in
theorem parseInclude_snap (h : PvSnap fs V pv pvS) (ps d) :
    Snap fs V (parseIncludeW w pv ps d) (fun f => parseInclude f (pvS f) ps d) := by
  unfold parseIncludeW parseInclude
  refine Snap.bind (Snap.silent (silent_checkDepth _)) fun _ => ?_
  refine Snap.bind (Snap.silent (silent_expectP _)) fun _ => ?_
  refine Snap.bind (Snap.silent silent_findCharP) fun _ => ?_
  refine Snap.ite (Snap.silent silent_failEnd) ?_
  refine Snap.bind (Snap.silent silent_getPos) fun p => ?_
  refine Snap.bind (h _ _ _ _ _ _) fun value => ?_
  refine Snap.bind (Snap.silent (silent_includeKeyword _ _ _)) fun kw => ?_
  refine Snap.bind (includePath_snap h _ _ _ _ _) ?_
  rintro ⟨v, q⟩
  refine Snap.bind (Snap.silent silent_includeClose) fun _ => ?_
  cases v with
  | str t => exact includeFile_snap hw hV h _ _ _ _
  | _ => exact Snap.silent (Silent.fail _)

include hw hV in
theorem parseTerm_snap (h : PvSnap fs V pv pvS) (ps l c d b) :
    Snap fs V (parseTermW w pv ps l c d b) (fun f => parseTerm f (pvS f) ps l c d b) := by
  have := parseInclude_snap hw hV h
  have := parseObj_snap h
  have := parseArr_snap h
  have := parseTup_snap h
  have := parseUnary_snap h
  have := parseVariable_snap h
  unfold parseTermW parseTerm; snap_steps

include hw hV in
theorem parseValueBody_snap (h : PvSnap fs V pv pvS) :
    PvSnap fs V (parseValueBodyW w pv) (fun f => parseValueBody f (pvS f)) := by
  have := parseTerm_snap hw hV h
  have := parseOps_snap h
  intro a b c d e f
  unfold parseValueBodyW parseValueBody; snap_steps

include hw hV in
theorem parseValue_snap : ∀ n, PvSnap fs V (parseValueW w n) (fun f => parseValue f n)
  | 0 => fun _ _ _ _ _ _ => Snap.silent Silent.oof
  | n + 1 => parseValueBody_snap hw hV (parseValue_snap n)

end

end Over
