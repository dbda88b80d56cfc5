import Verif.Lemmas.Extend2
import Verif.Lemmas.Lower2
import Verif.Lemmas.Top

/-!
# A text and the same text with more lines: includes, and the two runs together
-/

namespace Over

variable [Unicode]

omit [Unicode] in
theorem xs_of_eq {α : Type} {C : XCtx} (hJ : ∀ l, C.J l) (hI : ∀ i j, C.I i j ↔ j = i) {A : Str → Prop} {m1 m2 : P α} {B : α → Str → Prop} (h : ∀ s1 s2, XRel C s1 s2 → A s1.stream.rest →
    match m1 s1 with
    | .ok a t1 => t1.stream = s1.stream ∧ t1.globals = s1.globals ∧ B a s1.stream.rest ∧
        m2 s2 = .ok a { s2 with inc := t1.inc, rt := t1.rt }
    | .err e => C.Q e ∨ ∃ e', m2 s2 = .err e' ∧ C.E e e'
    | .panic => True
    | .oof => True) : XS C A m1 m2 B := by
  intro s1 s2 hs ha
  have h1 := h s1 s2 hs ha
  cases e : m1 s1 with
  | ok a t1 =>
    rw [e] at h1
    obtain ⟨h2, h3, h4, h5⟩ := h1
    refine ⟨_, h5, ⟨?_, hs.file2, ?_, ?_, ?_, (hI _ _).2 rfl, rfl, ?_, hJ _⟩, ?_⟩
    · rw [h2]; exact hs.file1
    · rw [h2]; exact hs.rest
    · rw [h2]; exact hs.pos
    · rw [h3]; exact hs.globals
    · rw [h2]; exact hs.live
    · rw [h2]; exact h4
  | err e => rw [e] at h1; exact h1
  | panic => trivial
  | oof => trivial

/-- Reading a file as the same file in the same parser. -/
theorem xs_loadFile {C : XCtx} (hJ : ∀ l, C.J l) (hI : ∀ i j, C.I i j ↔ j = i) (hr : ∀ e, C.E e e) (fs : FS) (pv : PV) (k : IncKind) (path : Str) :
    XS C Tr (loadFile fs pv k path) (loadFile fs pv k path) TrB := by
  unfold loadFile
  cases fs.read path with
  | error m => exact fun _ _ _ _ => .inr ⟨_, rfl, hr _⟩
  | ok t =>
    refine xs_ite (fun _ => xs_pure fun _ _ => trivial) fun _ => xs_of_eq hJ hI fun s1 s2 hs _ => ?_
    have : ({ s2 with stream := Stream.ofString (some path) t, globals := [] } : PState) =
        { s1 with stream := Stream.ofString (some path) t, globals := [] } := by rw [((hI _ _).1 hs.inc), hs.rt]
    unfold inFile
    rw [this]
    cases parseFileBody pv k { s1 with stream := Stream.ofString (some path) t, globals := [] } with
    | ok v s' => exact ⟨rfl, rfl, trivial, rfl⟩
    | err e => exact .inr ⟨_, rfl, hr _⟩
    | panic => trivial
    | oof => trivial

theorem xs_loadCached {C : XCtx} (hJ : ∀ l, C.J l) (hI : ∀ i j, C.I i j ↔ j = i) (hr : ∀ e, C.E e e) (fs : FS) (pv : PV) (k : IncKind) (path full : Str) :
    XS C Tr (loadCached fs pv k path full) (loadCached fs pv k path full) TrB := by
  intro s1 s2 hs ha
  unfold loadCached
  rw [((hI _ _).1 hs.inc)]
  cases StrMap.get s1.inc.cache full with
  | some v => exact ⟨s2, rfl, hs, trivial⟩
  | none =>
    have h1 := xs_loadFile hJ hI hr fs pv k path s1 s2 hs ha
    simp only
    cases e : loadFile fs pv k path s1 with
    | ok v t1 =>
      rw [e] at h1
      obtain ⟨t2, e2, ht, -⟩ := h1
      rw [e2]
      exact ⟨_, rfl, ⟨ht.file1, ht.file2, ht.rest, ht.pos, ht.globals, (hI _ _).2 (by rw [((hI _ _).1 ht.inc)]), ht.rt, ht.live, hJ _⟩, trivial⟩
    | err e' =>
      rw [e] at h1
      rcases h1 with h1 | ⟨e'', e2, h1⟩
      · exact .inl h1
      · rw [e2]; exact .inr ⟨e'', rfl, h1⟩
    | panic => trivial
    | oof => trivial

/-- Including a file in two texts with the same name. -/
theorem xinc_same {C : XCtx} (hJ : ∀ l, C.J l) (hI : ∀ i j, C.I i j ↔ j = i) (hf : C.f' = C.f) (hr : ∀ e, C.E e e) (fs : FS) (pv : PV) : XInc C fs fs pv pv := by
  intro k p l c
  refine xs_bind (B := TrB) (m1 := resolveInclude fs p l c) (m2 := resolveInclude fs p l c) ?_ ?_
  · unfold resolveInclude
    refine xs_bind (B := TrB) (xs_of_eq hJ hI fun s1 s2 hs _ => ⟨rfl, rfl, trivial, ?_⟩) fun file => ?_
    · simp only [getFile, hs.file1, hs.file2, hf, ← ((hI _ _).1 hs.inc), ← hs.rt]
    · cases includeTarget file p with
      | none => exact xs_panic
      | some path =>
      refine xs_ite (fun _ => xs_fail) fun _ => ?_
      cases fs.resolve path with
      | none => exact xs_fail
      | some full => exact xs_ite (fun _ => xs_fail) fun _ => xs_pure fun _ _ => trivial
  · rintro ⟨path, full⟩
    refine xs_bind (B := TrB) (xs_of_eq hJ hI fun s1 s2 hs _ => ?_) fun st => ?_
    · unfold storeCurrent
      rw [hs.file1, hs.file2, hf]
      cases C.f with
      | none => exact ⟨rfl, rfl, trivial, by rw [← ((hI _ _).1 hs.inc), ← hs.rt]⟩
      | some f =>
        simp only
        cases fs.resolve f with
        | none => trivial
        | some full =>
          simp only
          cases fs.utf8 full with
          | false => simp only [Bool.false_eq_true, if_false]
          | true => simp only [if_true]; exact ⟨trivial, trivial, trivial, by rw [((hI _ _).1 hs.inc), hs.rt]⟩
    · refine xs_bind (B := TrB) (xs_of_eq hJ hI fun s1 s2 hs _ => ⟨rfl, rfl, trivial, ?_⟩) fun op => ?_
      · simp only [getOpened, ← ((hI _ _).1 hs.inc), ← hs.rt]
      refine xs_ite (fun _ => xs_fail) fun _ => ?_
      refine xs_bind (xs_weak (xs_loadCached hJ hI hr fs pv k path full)) fun v => ?_
      refine xs_bind (B := TrB) (xs_of_eq hJ hI fun s1 s2 hs _ => ?_) fun _ => xs_pure fun _ _ => trivial
      unfold unstore
      cases st with
      | none => exact ⟨rfl, rfl, trivial, by rw [← ((hI _ _).1 hs.inc), ← hs.rt]⟩
      | some f => exact ⟨rfl, rfl, trivial, by rw [((hI _ _).1 hs.inc), hs.rt]⟩

/-- No include is possible without files. -/
theorem xinc_none {C : XCtx} (hq : ∀ p l c, C.Q ⟨C.f, .invalidIncludePath p l c⟩) (fs fs' : FS) (h0 : ∀ p, fs.isFile p = false)
    (pv pv' : PV) : XInc C fs fs' pv pv' := by
  intro k p l c s1 s2 hs _
  cases ht : includeTarget s1.stream.file p with
  | none =>
    have e : includeFileP fs pv k p l c s1 = .panic := by
      change P.bind (resolveInclude fs p l c) _ s1 = _
      have : resolveInclude fs p l c s1 = .panic := by
        simp only [resolveInclude, bind, P.bind, getFile, ht]
        rfl
      unfold P.bind
      rw [this]
    rw [e]
    trivial
  | some path =>
  have e : includeFileP fs pv k p l c s1 = .err ⟨s1.stream.file, .invalidIncludePath p l c⟩ := by
    change P.bind (resolveInclude fs p l c) _ s1 = _
    have : resolveInclude fs p l c s1 = .err ⟨s1.stream.file, .invalidIncludePath p l c⟩ := by
      simp only [resolveInclude, bind, P.bind, getFile, ht, h0, Bool.not_false, if_true]
      rfl
    unfold P.bind
    rw [this]
  rw [e, hs.file1]
  exact Or.inl (hq p l c)

end Over
