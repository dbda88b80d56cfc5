import Verif.Lemmas.Numbers
import Verif.Lemmas.Values
import Verif.Spec.Names
import Verif.Spec.Values
import Verif.Model.Parser

/-!
# A program logic for parsing actions

`wp m s Q E`: from state `s` the action neither panics nor runs out of fuel; on success `Q` holds, on an
error `E` holds.
-/

namespace Over

/-- Whether panics are tolerated: they are not, except in the study of termination. -/
class PanicOk where
  allowed : Prop

/-- Total-correctness postcondition. -/
def wp [PanicOk] {α : Type} (m : P α) (s : PState) (Q : α → PState → Prop) (E : ParseError → Prop) : Prop :=
  match m s with
  | .ok a s' => Q a s'
  | .err e => E e
  | .panic => PanicOk.allowed
  | .oof => False

section rules
variable [PanicOk]
variable {α β : Type} {s : PState} {Q : α → PState → Prop} {E : ParseError → Prop}

theorem wp_pure {a : α} : wp (pure a) s Q E ↔ Q a s := Iff.rfl

theorem wp_bind {m : P α} {f : α → P β} {Q : β → PState → Prop} :
    wp (m >>= f) s Q E ↔ wp m s (fun a s' => wp (f a) s' Q E) E := by
  simp only [wp, bind, P.bind]
  cases m s <;> rfl

theorem wp_mono {m : P α} {Q' : α → PState → Prop} {E' : ParseError → Prop} (h : wp m s Q E)
    (hQ : ∀ a s', Q a s' → Q' a s') (hE : ∀ e, E e → E' e) : wp m s Q' E' := by
  simp only [wp] at *
  cases hm : m s with
  | ok a s' => rw [hm] at h; exact hQ _ _ h
  | err e => rw [hm] at h; exact hE _ h
  | panic => rw [hm] at h; exact h
  | oof => rw [hm] at h; exact h

theorem wp_and {m : P α} {Q' : α → PState → Prop} {E' : ParseError → Prop} (h : wp m s Q E)
    (h' : wp m s Q' E') : wp m s (fun a s' => Q a s' ∧ Q' a s') (fun e => E e ∧ E' e) := by
  simp only [wp] at *
  cases hm : m s with
  | ok a s' => rw [hm] at h h'; exact ⟨h, h'⟩
  | err e => rw [hm] at h h'; exact ⟨h, h'⟩
  | panic => rw [hm] at h; exact h
  | oof => rw [hm] at h; exact h

theorem wp_fail {k : Kind} : wp (fail k) s Q E ↔ E ⟨s.stream.file, k⟩ := Iff.rfl
theorem wp_panicP : wp panicP s Q E ↔ PanicOk.allowed := Iff.rfl
theorem wp_oofP : wp oofP s Q E ↔ False := Iff.rfl
theorem wp_getPos {Q : Pos → PState → Prop} : wp getPos s Q E ↔ Q s.stream.pos s := Iff.rfl
theorem wp_getFile {Q : Option Str → PState → Prop} : wp getFile s Q E ↔ Q s.stream.file s := Iff.rfl
theorem wp_getOpened {Q : List Str → PState → Prop} :
    wp getOpened s Q E ↔ Q s.inc.opened s := Iff.rfl
theorem wp_peekP {Q : Option Char → PState → Prop} : wp peekP s Q E ↔ Q s.stream.rest.head? s := Iff.rfl
theorem wp_failEnd : wp failEnd s Q E ↔ E ⟨s.stream.file, .unexpectedEnd s.stream.pos.line⟩ := Iff.rfl
theorem wp_withBound {f : Nat → P α} :
    wp (withBound f) s Q E ↔ wp (f (s.stream.rest.length + 1)) s Q E := Iff.rfl
theorem wp_genId {Q : Nat → PState → Prop} :
    wp genId s Q E ↔ Q s.rt.curId { s with rt := s.rt.after { s.rt.toShared with curId := s.rt.curId + 1 } } := Iff.rfl
theorem wp_nextP {Q : Option Char → PState → Prop} :
    wp nextP s Q E ↔ Q s.stream.next.1 { s with stream := s.stream.next.2 } := Iff.rfl
theorem wp_findCharP {Q : Bool → PState → Prop} :
    wp findCharP s Q E ↔ Q s.stream.findChar.1 { s with stream := s.stream.findChar.2 } := Iff.rfl

theorem wp_liftLex {f : Str → Pos → Lex α} (h : (f s.stream.rest s.stream.pos).post
      (fun a rest pos => Q a { s with stream := { s.stream with rest := rest, pos := pos } })
      (fun k => E ⟨s.stream.file, k⟩)) :
    wp (liftLex f) s Q E := by
  simp only [wp, liftLex]
  revert h
  cases f s.stream.rest s.stream.pos with
  | panic => intro h; exact h.elim
  | _ => exact id

theorem wp_ite {c : Prop} [Decidable c] {m m' : P α} :
    wp (if c then m else m') s Q E ↔ (c → wp m s Q E) ∧ (¬ c → wp m' s Q E) := by
  by_cases h : c <;> simp [h]

end rules

/-! ## Sources, errors, states -/

/-- The file being read. -/
structure Env where
  file : Option Str
  full : Str
  cur : Option Str
  anc : List Str

/-- Canonical paths of the files being read. -/
def Env.stack (env : Env) : List Str := env.cur.toList ++ env.anc

/-- The current file has a usable canonical path that is not yet being read. -/
def EnvOk [PanicOk] (fs : FS) (env : Env) : Prop :=
  match env.file with
  | none => env.cur = none ∧ env.anc = []
  | some f => ∃ c, fs.resolve f = some c ∧ (fs.utf8 c = true ∨ PanicOk.allowed) ∧ env.cur = some c ∧ c ∉ env.anc

variable [Unicode]

/-- A value as the parser produces it. -/
def Good (v : Value) : Prop := WellTyped v ∧ NamesOk v
/-- A list of fields as the parser produces it. -/
def GoodPairs (ps : List Pair) : Prop :=
  (∀ p ∈ ps, FieldName p.field ∧ Good p.value) ∧ (ps.map Pair.field).Nodup
/-- An object as the parser produces it. -/
def GoodObj (o : Obj) : Prop := WellTypedObj o ∧ NamesOkObj o
/-- Values bound in a map. -/
def GoodMap (m : StrMap Value) : Prop := ∀ e ∈ m, Good e.2

/-- The state is one of reading `env`. -/
structure At (env : Env) (s : PState) : Prop where
  file : s.stream.file = env.file
  here : Here env.full s.stream.rest s.stream.pos
  opened : s.inc.opened = env.anc
  globals : GoodMap s.globals
  cache : GoodMap s.inc.cache

theorem good_obj (o : Obj) : Good (.obj o) ↔ GoodObj o := by
  constructor
  · rintro ⟨h1, h2⟩; cases h1; cases h2; exact ⟨‹_›, ‹_›⟩
  · rintro ⟨h1, h2⟩; exact ⟨.obj h1, .obj h2⟩

theorem good_arr {id t vs} : Good (.arr id t vs) ↔
    (∀ v ∈ vs, Good v) ∧ LeastCommonRefinement t (vs.map Value.getType) := by
  constructor
  · rintro ⟨h1, h2⟩
    cases h1 with | arr h1 h3 =>
    cases h2 with | arr h2 =>
    exact ⟨fun v hv => ⟨h1 v hv, h2 v hv⟩, h3⟩
  · rintro ⟨h1, h2⟩
    exact ⟨.arr (fun v hv => (h1 v hv).1) h2, .arr (fun v hv => (h1 v hv).2)⟩

theorem good_tup {id ts vs} : Good (.tup id ts vs) ↔
    (∀ v ∈ vs, Good v) ∧ ts = vs.map Value.getType := by
  constructor
  · rintro ⟨h1, h2⟩
    cases h1 with | tup h1 h3 =>
    cases h2 with | tup h2 =>
    exact ⟨fun v hv => ⟨h1 v hv, h2 v hv⟩, h3⟩
  · rintro ⟨h1, h2⟩
    exact ⟨.tup (fun v hv => (h1 v hv).1) h2, .tup (fun v hv => (h1 v hv).2)⟩

theorem goodObj_mk {id ps par} : GoodObj (.mk id ps par) ↔
    GoodPairs ps ∧ ∀ q, par = some q → GoodObj q := by
  constructor
  · rintro ⟨h1, h2⟩
    cases h1 with | mk h1 h3 =>
    cases h2 with | mk h4 h5 h6 h7 =>
    exact ⟨⟨fun p hp => ⟨h4 p hp, h1 p hp, h6 p hp⟩, h5⟩, fun q hq => ⟨h3 q hq, h7 q hq⟩⟩
  · rintro ⟨⟨h1, h2⟩, h3⟩
    exact ⟨.mk (fun p hp => (h1 p hp).2.1) (fun q hq => (h3 q hq).1),
      .mk (fun p hp => (h1 p hp).1) h2 (fun p hp => (h1 p hp).2.2) (fun q hq => (h3 q hq).2)⟩

theorem goodObj_empty (i : Nat) : GoodObj (Obj.empty i) := by
  rw [Obj.empty, Obj.fromPairsUnchecked, goodObj_mk]
  exact ⟨⟨by simp, by simp⟩, by simp⟩

theorem good_null : Good .null := ⟨.null, .null⟩
theorem good_bool (b) : Good (.bool b) := ⟨.bool b, .bool b⟩
theorem good_int (b) : Good (.int b) := ⟨.int b, .int b⟩
theorem good_frac (b) : Good (.frac b) := ⟨.frac b, .frac b⟩
theorem good_str (b) : Good (.str b) := ⟨.str b, .str b⟩

omit [Unicode] in
theorem StrMap.get_mem {α : Type} {m : StrMap α} {k : Str} {v : α} (h : StrMap.get m k = some v) :
    (k, v) ∈ m := by
  simp only [StrMap.get] at h
  cases hf : List.find? (fun e => e.1 == k) m with
  | none => rw [hf] at h; simp at h
  | some e =>
    rw [hf] at h
    simp only [Option.some.injEq] at h
    have h1 := List.mem_of_find?_eq_some hf
    have h2 := List.find?_some hf
    simp only [beq_iff_eq] at h2
    obtain ⟨a, b⟩ := e
    simp only at h h2
    subst h; subst h2; exact h1

omit [Unicode] in
theorem findPair_mem {ps : List Pair} {f : Str} {p : Pair} (h : findPair ps f = some p) :
    p ∈ ps ∧ p.field = f := by
  refine ⟨List.mem_of_find?_eq_some h, ?_⟩
  have := List.find?_some h
  simpa using this

/-- Only the process-wide counters changed. -/
structure Same (s s' : PState) : Prop where
  stream : s'.stream = s.stream
  globals : s'.globals = s.globals
  inc : s'.inc = s.inc

omit [Unicode] in
theorem Same.refl (s : PState) : Same s s := ⟨rfl, rfl, rfl⟩
omit [Unicode] in
theorem Same.trans {a b c : PState} (h1 : Same a b) (h2 : Same b c) : Same a c :=
  ⟨h2.1.trans h1.1, h2.2.trans h1.2, h2.3.trans h1.3⟩
theorem Same.at {env : Env} {s s' : PState} (h : Same s s') (ha : At env s) : At env s' :=
  ⟨by rw [h.stream]; exact ha.file, by rw [h.stream]; exact ha.here, by rw [h.inc]; exact ha.opened,
    by rw [h.globals]; exact ha.globals, by rw [h.inc]; exact ha.cache⟩

section errs
variable {fs : FS} {main : Option Str × Str} {env : Env} {s : PState}

theorem err_of_kind (hsrc : Src fs main env.file env.full) (ha : At env s) {k : Kind}
    (hk : KindIn env.full k) : ErrOk fs main ⟨s.stream.file, k⟩ :=
  .inl ⟨env.full, by rw [ha.file]; exact hsrc, hk⟩

theorem err_end (hsrc : Src fs main env.file env.full) (ha : At env s) (hr : s.stream.rest = []) :
    ErrOk fs main ⟨s.stream.file, .unexpectedEnd s.stream.pos.line⟩ :=
  err_of_kind hsrc ha (.unexpectedEnd (by
    have := ha.here
    rw [hr] at this
    exact this.end_line))

end errs

theorem At.move {env : Env} {s : PState} (ha : At env s) {rest : Str} {pos : Pos}
    (h : Here env.full rest pos) : At env { s with stream := { s.stream with rest := rest, pos := pos } } :=
  ⟨ha.file, h, ha.opened, ha.globals, ha.cache⟩

omit [Unicode] in
theorem Stream.next_cons {st : Stream} {c : Char} {r : Str} (h : st.rest = c :: r) :
    st.next = (some c, { st with rest := r, pos := st.pos.adv c }) := by
  simp [Stream.next, h]

omit [Unicode] in
theorem wp_nextP_cons [PanicOk] {s : PState} {c : Char} {r : Str} (h : s.stream.rest = c :: r)
    {Q : Option Char → PState → Prop} {E : ParseError → Prop} :
    wp nextP s Q E ↔ Q (some c)
      { s with stream := { s.stream with rest := r, pos := s.stream.pos.adv c } } := by
  rw [wp_nextP, Stream.next_cons h]

omit [Unicode] in
theorem wp_expectP [PanicOk] {s : PState} {c : Char} {r : Str} (h : s.stream.rest = c :: r)
    {Q : Unit → PState → Prop} {E : ParseError → Prop} :
    wp (expectP c) s Q E ↔ Q ()
      { s with stream := { s.stream with rest := r, pos := s.stream.pos.adv c } } := by
  simp only [expectP, wp_bind, wp_nextP_cons h, if_true]; rfl

/-- What `find_char` finds. -/
def FoundAt (rest' : Str) : Prop := ∃ c r, rest' = c :: r ∧ isUniWhitespace c = false ∧ c ≠ '#'

theorem findCharP_spec [PanicOk] {env : Env} {s : PState} (ha : At env s) {E : ParseError → Prop} :
    wp findCharP s (fun b s' => At env s' ∧
      (b = true → ∃ g, s.stream.rest = g ++ s'.stream.rest ∧ Gap g ∧ FoundAt s'.stream.rest) ∧
      (b = false → s'.stream.rest = [] ∧ EndGap s.stream.rest)) E := by
  rw [wp_findCharP]
  simp only [Stream.findChar]
  have h1 := (findCharGo_spec s.stream.rest s.stream.pos).1 _ _ _ rfl
  refine ⟨?_, ?_, ?_⟩
  · cases hb : (findCharGo false s.stream.rest s.stream.pos).1 with
    | true =>
      obtain ⟨g, h2, h3, h4, h5⟩ := h1.1 hb
      apply ha.move
      rw [h4]
      have := ha.here
      rw [h2] at this
      exact this.advs
    | false =>
      obtain ⟨h2, h3, h4⟩ := h1.2 hb
      apply ha.move
      rw [h4, h2]
      have := ha.here
      rw [← List.append_nil s.stream.rest] at this
      exact this.advs
  · intro hb
    obtain ⟨g, h2, h3, h4, h5⟩ := h1.1 hb
    exact ⟨g, h2, h3, h5⟩
  · intro hb
    obtain ⟨h2, h3, h4⟩ := h1.2 hb
    exact ⟨h2, h3⟩

end Over
