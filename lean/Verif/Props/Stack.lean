import Verif.Props.Parsing
import Verif.Lemmas.Stack2
import Verif.Spec.Concrete

/-!
# C79: how deep the calls of the parser are nested

`parseValue fs n` is `parse_value` in which a call nested deeper than `n` gives up (`.oof`).  Brackets are nested at most 64 deep and a file is
not included within itself, so only chains of signs (`---1`) and of dots (`a.b.c`) can nest the calls further.
-/

set_option linter.unusedSectionVars false

namespace Over

section
variable [Unicode]

/-- C79: `Obj::from_str` reads a text with calls nested at most `65 * (k + 2)` deep for the text and each file, when no chain of signs and dots
is longer than `k`: however long the text is, whatever the number of fields, elements and operators. -/
theorem c79_nesting (fs : FS) (k n : Nat) (text : Str) (rt : Rt) (ht : ChainsUpTo k text) (hfs : fs.ChainsUpTo k)
    (hn : (fs.nodes.length + 1) * (65 * (k + 2)) ≤ n) :
    fromStrFuel fs n text rt = fromStr fs text rt ∧ fromStrFuel fs n text rt ≠ .oof := by
  have key : fromStrFuel fs n text rt = fromStr fs text rt := by
    have h1 : ∀ m, n ≤ m → fromStrFuel fs n text rt = fromStrFuel fs m text rt := by
      intro m hm
      refine (parseObjStream_agr (F := none) (O := []) (parseValue_agr hfs n m hm) (fun c h => by cases h) ?_ _ ⟨ht, rfl, rfl⟩).1
      have := Nat.mul_le_mul_right (65 * (k + 2)) (FS.filesExcl_le fs (inReading fs none []))
      rw [Nat.add_mul, Nat.one_mul] at hn
      simp only [Room, room]
      omega
    have h2 : ∀ m, text.length + fs.size ≤ m → fromStrFuel fs m text rt = fromStr fs text rt := fun m hm => by
      rw [c23_bound_irrelevant fs text rt m hm, fromStr, c23_bound_irrelevant fs text rt (fs.fuel text) (by simp only [FS.fuel]; omega)]
    rw [h1 (n + (text.length + fs.size)) (by omega), h2 _ (by omega)]
  exact ⟨key, key ▸ c23_from_str_terminates fs text rt⟩

/-- C79: the same for `Obj::from_file`. -/
theorem c79_nesting_file (fs : FS) (k n : Nat) (path text : Str) (rt : Rt) (hr : fs.read path = .ok text) (hfs : fs.ChainsUpTo k)
    (hn : fs.nodes.length * (65 * (k + 2)) ≤ n) :
    parseObjStream (parseValue fs n) (PState.init (some path) text rt) = fromFile fs path rt ∧
      parseObjStream (parseValue fs n) (PState.init (some path) text rt) ≠ .oof := by
  obtain ⟨c, hc⟩ := read_resolve hr
  have hnode : StrMap.get fs.nodes c = some (.ok text) := by
    simp only [FS.read, hc] at hr
    cases hg : StrMap.get fs.nodes c with
    | some r => rw [hg] at hr; rw [← hr]
    | none => rw [hg] at hr; cases hr
  have key : parseObjStream (parseValue fs n) (PState.init (some path) text rt) = fromFile fs path rt := by
    rw [← c23_bound_irrelevant_file fs path text rt hr (n + (text.length + fs.size)) (by omega)]
    refine (parseObjStream_agr (F := some path) (O := []) (parseValue_agr hfs n _ (by omega)) (fun c h => List.not_mem_nil) ?_ _
      ⟨hfs path text hr, rfl, rfl⟩).1
    have h1 := FS.filesExcl_cons fs c [] List.not_mem_nil _ hnode
    have h2 := Nat.mul_le_mul_right (65 * (k + 2)) (h1.trans (FS.filesExcl_le fs []))
    rw [Nat.add_mul, Nat.one_mul] at h2
    simp only [Room, room, inReading, Option.bind_some, hc]
    omega
  exact ⟨key, key ▸ c23_from_file_terminates fs path rt⟩

/-- C79: `parse_variable` calls itself for a dot on an object; it does so at most once for each dot of the path. -/
theorem c79_path_nesting (pv : PV) : ∀ (n m : Nat) (ps : List Pair) (l c d : Nat) (b : Option Char) (s : PState),
    pathDots s.stream.rest + 1 ≤ n → n ≤ m → parseVariable pv m ps l c d b s = parseVariable pv n ps l c d b s
  | 0, _, _, _, _, _, _, _, h, _ => by omega
  | n + 1, 0, _, _, _, _, _, _, _, h => by omega
  | n + 1, m + 1, ps, l, c, d, b, s, h, hm => by
    unfold parseVariable
    simp only [Bind.bind, P.bind]
    cases hl : liftLex lexVar s with
    | err e => rfl
    | panic => rfl
    | oof => rfl
    | ok y s1 =>
      obtain ⟨x, g, dt⟩ := y
      have key : dt ≠ .none → pathDots s1.stream.rest + 1 ≤ n := by
        simp only [liftLex] at hl
        cases hv : lexVar s.stream.rest s.stream.pos with
        | ok y r2 p2 =>
          rw [hv] at hl
          cases hl
          intro hn
          obtain ⟨h1, h2⟩ := (lexVar_suf hv).2 hn
          have : chainLen r2 = pathDots r2 := by
            cases r2 with
            | nil => rfl
            | cons ch cs => simp only [chainLen, if_neg (h2 _ _ rfl)]
          simp only
          omega
        | err e => rw [hv] at hl; cases hl
        | panic => rw [hv] at hl; cases hl
      simp only
      cases hlv : lookupVar ps x g l c s1 with
      | err e => rfl
      | panic => rfl
      | oof => rfl
      | ok v s2 =>
        have hst := lookupVar_stream hlv
        cases dt with
        | none => rfl
        | dotGlobal => cases v <;> rfl
        | dot =>
          cases v with
          | obj o =>
            simp only [P.bind, getPos]
            exact c79_path_nesting pv n m _ _ _ _ _ s2 (by rw [hst]; exact key (by simp)) (by omega)
          | _ => rfl

/-! ## Signs do nest the calls -/

theorem signs_oof (fs : FS) : ∀ (n : Nat) (ps : List Pair) (l c d : Nat) (b : Option Char) (f : Bool) (s : PState),
    s.stream.rest = List.replicate n '-' ++ c!"1" → parseValue fs n ps l c d b f s = .oof
  | 0, _, _, _, _, _, _, _, _ => rfl
  | n + 1, ps, l, c, d, b, f, s, h => by
    obtain ⟨st, gl, ic, rt⟩ := s
    obtain ⟨fl, r, p⟩ := st
    simp only at h
    subst h
    have hne : ∃ x xs, List.replicate n '-' ++ c!"1" = x :: xs := by cases n <;> exact ⟨_, _, rfl⟩
    obtain ⟨x, xs, hx⟩ := hne
    have ih := signs_oof fs n ps (p.adv '-').line (p.adv '-').col (d + 1) b false ⟨⟨fl, List.replicate n '-' ++ c!"1", p.adv '-'⟩, gl, ic, rt⟩ rfl
    have hu : parseUnary (parseValue fs n) ps d b .minus ⟨⟨fl, '-' :: (List.replicate n '-' ++ c!"1"), p⟩, gl, ic, rt⟩ = .oof := by
      simp only [parseUnary, Bind.bind, P.bind, nextP, Stream.next]
      rw [if_pos (.inl ⟨trivial, trivial⟩)]
      rw [hx] at ih ⊢
      simp only [P.bind, getPos, peekP, Stream.peek, List.head?_cons, ih]
    have ht : parseTerm fs (parseValue fs n) ps l c d b ⟨⟨fl, '-' :: (List.replicate n '-' ++ c!"1"), p⟩, gl, ic, rt⟩ = .oof := by
      simp only [parseTerm, Bind.bind, P.bind, peekP, Stream.peek]
      exact hu
    show parseValueBody fs (parseValue fs n) ps l c d b f _ = .oof
    simp only [parseValueBody, Bind.bind, P.bind, List.replicate_succ, List.cons_append]
    rw [ht]

/-- C79: the bound must grow with the length of the chain: `n` signs nest the calls deeper than `n`.  The depth limit of 64 does not apply to
them, so that a text of signs can use up any stack. -/
theorem c79_signs_nest (fs : FS) (n : Nat) (rt : Rt) : fromStrFuel fs n (c!"a:" ++ List.replicate n '-' ++ c!"1") rt = .oof := by
  have h : ∃ x xs, List.replicate n '-' ++ c!"1" = x :: xs ∧ (x = '-' ∨ x = '1') := by
    cases n with
    | zero => exact ⟨_, _, rfl, .inr rfl⟩
    | succ n => exact ⟨_, _, rfl, .inl rfl⟩
  obtain ⟨x, xs, hx, hx'⟩ := h
  have f1 : ∀ t p, findCharGo false ('a' :: t) p = (true, 'a' :: t, p) := fun t p => rfl
  have f2 : ∀ p, findCharGo false (x :: xs) p = (true, x :: xs, p) := fun p => by rcases hx' with rfl | rfl <;> rfl
  have f3 : lexField ('a' :: ':' :: (x :: xs)) ⟨1, 1⟩ 1 1 = .ok (c!"a", .regular) (x :: xs) ⟨1, 3⟩ := rfl
  have f4 : findCharP (PState.init none ('a' :: ':' :: (x :: xs)) rt) = .ok true (PState.init none ('a' :: ':' :: (x :: xs)) rt) := by
    simp only [findCharP, PState.init, Stream.ofString, Stream.findChar, f1]
  have f5 : parseFieldValuePair (parseValue fs n) [] none 1 none (PState.init none ('a' :: ':' :: (x :: xs)) rt) = .oof := by
    simp only [parseFieldValuePair, Bind.bind, P.bind, peekP, PState.init, Stream.ofString, Stream.peek, List.head?_cons]
    rw [if_neg (by decide), if_neg (by decide)]
    simp only [getPos, liftLex, f3, checkDuplicate, P.bind, List.any_nil, Bool.false_eq_true, if_false, findCharP, Stream.findChar, f2, Bool.not_true]
    rw [← hx, signs_oof fs n _ _ _ _ _ _ _ rfl]
  show parseObjStream (parseValue fs n) (PState.init none ('a' :: ':' :: (List.replicate n '-' ++ c!"1")) rt) = .oof
  rw [hx]
  simp only [parseObjStream, Bind.bind, P.bind, f4, Bool.not_true, Bool.false_eq_true, if_false, withBound]
  have : ∀ m, fieldsLoop (parseValue fs n) 1 none (m + 1) [] none (PState.init none ('a' :: ':' :: (x :: xs)) rt) = .oof := by
    intro m
    simp only [fieldsLoop, Bind.bind, P.bind, f5]
  rw [this]

/-- The chains of a given text. -/
theorem chainsUpTo_spec (k : Nat) (text : Str) (h : ∀ i ∈ List.range (text.length + 1), chainLen (text.drop i) ≤ k) :
    ChainsUpTo k text := by
  intro u v e
  have := h u.length (List.mem_range.2 (by rw [e, List.length_append]; omega))
  rwa [e, List.drop_left] at this

end

/-! ## Examples -/

section
attribute [local instance] sampleUnicode

/-- A text with a chain of five. -/
def signText : Str := c!"a: {b: [1 2]}\nc: ---a.b.1 + 2 * (1 -1).0 # --"

theorem signText_chains : ChainsUpTo 5 signText := chainsUpTo_spec 5 _ (by decide +kernel)
example : ¬ ChainsUpTo 4 signText := fun h => absurd (h c!"a: {b: [1 2]}\nc: " _ rfl) (by decide +kernel)

theorem noFiles_chains (k : Nat) : (files []).ChainsUpTo k := by
  intro path text h
  simp only [FS.read] at h
  split at h
  · split at h
    · rename_i hr
      cases hr
    · cases h
  · cases h

example (rt : Rt) : fromStrFuel (files []) 455 signText rt = fromStr (files []) signText rt :=
  (c79_nesting (files []) 5 455 signText rt signText_chains (noFiles_chains 5) (by decide)).1

/-- Whether the calls were nested too deep. -/
def tooDeep {α : Type} : Res α → Bool
  | .oof => true
  | _ => false

/-- `---a.b.1` needs five calls of `parse_value`, one in another (the dot on an object is one of `parse_variable`). -/
example : tooDeep (fromStrFuel (files []) 4 c!"a: {b: [1 2]}\nc: ---a.b.1" startRt) = true := by decide +kernel
example : (fromStrFuel (files []) 5 c!"a: {b: [1 2]}\nc: ---a.b.1" startRt).written = some c!"a: {\n    b: [\n        1\n        2\n    ]\n}\nc: -2\n" := by
  decide +kernel

end

end Over
