import Verif.Lemmas.Extend
import Verif.Spec.Location

/-!
# A text and the same text with more lines: the top level
-/

set_option linter.unusedSectionVars false

namespace Over

theorem findCharGo_false_end : ∀ (b : Bool) (r : Str) (p : Pos) {r' p'}, findCharGo b r p = (false, r', p') →
    r' = [] ∧ p' = p.advs r ∧ (r.getLast? = some '\n' → ∀ z, findCharGo b (r ++ z) p = findCharGo false z p')
  | b, [], p, r', p', h => by simp only [findCharGo] at h; cases h; exact ⟨rfl, rfl, by simp⟩
  | true, ch :: cs, p, r', p', h => by
    simp only [findCharGo] at h
    by_cases hc : ch = '\n'
    · rw [if_pos hc] at h
      obtain ⟨h1, h2, h3⟩ := findCharGo_false_end false cs _ h
      refine ⟨h1, h2, fun h4 z => ?_⟩
      simp only [List.cons_append, findCharGo]
      rw [if_pos hc]
      cases cs with
      | nil => simp only [findCharGo] at h; cases h; rfl
      | cons x l => exact h3 (by simpa [List.getLast?_cons_cons] using h4) z
    · rw [if_neg hc] at h
      obtain ⟨h1, h2, h3⟩ := findCharGo_false_end true cs _ h
      refine ⟨h1, h2, fun h4 z => ?_⟩
      simp only [List.cons_append, findCharGo]
      rw [if_neg hc]
      exact h3 (getLast_tail h4 hc) z
  | false, ch :: cs, p, r', p', h => by
    simp only [findCharGo] at h
    by_cases hc : ch = '#'
    · rw [if_pos hc] at h
      obtain ⟨h1, h2, h3⟩ := findCharGo_false_end true cs _ h
      refine ⟨h1, h2, fun h4 z => ?_⟩
      simp only [List.cons_append, findCharGo]
      rw [if_pos hc]
      exact h3 (getLast_tail h4 (by rw [hc]; decide)) z
    · rw [if_neg hc] at h
      by_cases hw : isUniWhitespace ch = true
      · rw [if_pos hw] at h
        obtain ⟨h1, h2, h3⟩ := findCharGo_false_end false cs _ h
        refine ⟨h1, h2, fun h4 z => ?_⟩
        simp only [List.cons_append, findCharGo]
        rw [if_neg hc, if_pos hw]
        cases cs with
        | nil => simp only [findCharGo] at h; cases h; rfl
        | cons x l => exact h3 (by simpa [List.getLast?_cons_cons] using h4) z
      · rw [if_neg hw] at h; cases h

/-- The first run came to the end of its text; the second one looks for something in what was added: it is now in the
state `s2`, and `b` says whether there was something. -/
structure After (C : XCtx) (s1 s2 : PState) (b : Bool) : Prop where
  file : s2.stream.file = C.f'
  found : findCharGo false C.y s1.stream.pos = (b, s2.stream.rest, s2.stream.pos)
  globals : s2.globals = s1.globals
  inc : C.I s1.inc s2.inc
  rt : s2.rt = s1.rt

section
variable {C : XCtx} {s1 s2 : PState}

/-- `find_char` in both runs. -/
theorem findChar_two (hs : XRel C s1 s2) :
    (∃ t1 t2, findCharP s1 = .ok true t1 ∧ findCharP s2 = .ok true t2 ∧ XRel C t1 t2 ∧ Found t1.stream.rest) ∨
    (∃ t1 t2, C.y = [] ∧ findCharP s1 = .ok false t1 ∧ findCharP s2 = .ok false t2 ∧ XRel C t1 t2) ∨
    (∃ t1 t2 b, C.y ≠ [] ∧ findCharP s1 = .ok false t1 ∧ findCharP s2 = .ok b t2 ∧ After C t1 t2 b ∧
      t1.stream.pos = s1.stream.pos.advs s1.stream.rest) := by
  simp only [findCharP, Stream.findChar, hs.rest, hs.pos]
  cases e : findCharGo false s1.stream.rest s1.stream.pos with
  | mk b rp =>
    obtain ⟨r, p⟩ := rp
    cases b with
    | true =>
      obtain ⟨ch, cs, rfl, h2, h3, h4, h5⟩ := findCharGo_true_head _ _ _ e
      rw [h4 C.y]
      exact .inl ⟨_, _, rfl, rfl, ⟨hs.file1, hs.file2, rfl, rfl, hs.globals, hs.inc, hs.rt, Live_findChar hs.live h5, hs.files⟩,
        ch, cs, rfl, h2, h3⟩
    | false =>
      by_cases hy : C.y = []
      · rw [hy, List.append_nil, e]
        exact .inr (.inl ⟨_, _, rfl, rfl, rfl, ⟨hs.file1, hs.file2, by simp only [hy, List.append_nil], rfl, hs.globals, hs.inc,
          hs.rt, .inl hy, hs.files⟩⟩)
      · obtain ⟨rfl, h2, h3⟩ := findCharGo_false_end _ _ _ e
        rw [h3 (hs.live.resolve_left hy)]
        exact .inr (.inr ⟨_, _, (findCharGo false C.y p).1, hy, rfl, rfl, ⟨hs.file2, rfl, hs.globals, hs.inc, hs.rt⟩, h2⟩)

/-- Outcomes of a definition of the main text. -/
def XField (C : XCtx) : Res (Bool × List Pair × Option Obj) → Res (Bool × List Pair × Option Obj) → Prop
  | .ok (b, x) s1, r2 =>
    (∃ s2, r2 = .ok (b, x) s2 ∧ XRel C s1 s2 ∧ (b = true → Found s1.stream.rest) ∧ (b = false → C.y = [])) ∨
    (C.y ≠ [] ∧ b = false ∧ ∃ b' s2, r2 = .ok (b', x) s2 ∧ After C s1 s2 b')
  | .err e, r2 => C.Q e ∨ ∃ e', r2 = .err e' ∧ C.E e e'
  | .panic, _ => True
  | .oof, _ => True

theorem fieldTail_two (hs : XRel C s1 s2) (x : List Pair × Option Obj) :
    XField C (fieldTail none x s1) (fieldTail none x s2) := by
  rcases findChar_two hs with ⟨t1, t2, e1, e2, h, hf⟩ | ⟨t1, t2, hy, e1, e2, h⟩ | ⟨t1, t2, b, hy, e1, e2, h, -⟩
  · simp only [fieldTail, bind, P.bind, e1, e2, Bool.not_true]
    exact .inl ⟨t2, rfl, h, fun _ => hf, fun h => by cases h⟩
  · simp only [fieldTail, bind, P.bind, e1, e2, Bool.not_false, if_true]
    exact .inl ⟨t2, rfl, h, (fun h => by cases h), fun _ => hy⟩
  · cases b with
    | false =>
      simp only [fieldTail, bind, P.bind, e1, e2, Bool.not_false, if_true]
      exact .inr ⟨hy, rfl, false, t2, rfl, h⟩
    | true =>
      simp only [fieldTail, bind, P.bind, e1, e2, Bool.not_false, Bool.not_true, if_true]
      exact .inr ⟨hy, rfl, true, t2, rfl, h⟩

variable [Unicode] {pv1 pv2 : PV} (hpv : XPV C pv1 pv2)
include hpv

theorem field_two (hs : XRel C s1 s2) (ps : List Pair) (par : Option Obj) (d : Nat) :
    XField C (parseFieldValuePair pv1 ps par d none s1) (parseFieldValuePair pv2 ps par d none s2) := by
  rw [parseFieldValuePair_eq, parseFieldValuePair_eq]
  have hp : s2.stream.peek = s1.stream.peek := by
    simp only [Stream.peek, hs.rest]
    cases h : s1.stream.rest with
    | nil =>
      have := hs.live
      rw [h] at this
      rw [this.nil]; rfl
    | cons c cs => rfl
  simp only [bind, P.bind, peekP, hp]
  cases s1.stream.peek with
  | none => trivial
  | some ch =>
    simp only [Option.isSome, Bool.false_eq_true, and_false, if_false]
    split
    · refine .inr ⟨⟨C.f', .invalidClosingBracket none ch s1.stream.pos.line s1.stream.pos.col⟩, ?_, ?_⟩
      · change Res.err _ = _
        rw [hs.file2, hs.pos]
      · rw [hs.file1]; exact C.hE _
    · simp only [fieldPart, bind, P.bind]
      have h1 := xs_fieldHead hpv (A := Tr) ps par d none s1 s2 hs trivial
      cases e1 : fieldHead pv1 ps par d none s1 with
      | ok x t1 =>
        rw [e1] at h1
        obtain ⟨t2, e2, hs', -⟩ := h1
        rw [e2]
        exact fieldTail_two hs' x
      | err e =>
        rw [e1] at h1
        rcases h1 with h1 | ⟨e', e2, h1⟩
        · exact .inl h1
        · rw [e2]; exact .inr ⟨e', rfl, h1⟩
      | panic => trivial
      | oof => trivial

/-- Outcomes of the definitions of the main text. -/
def XLoop (C : XCtx) (pv2 : PV) (d : Nat) : Res (List Pair × Option Obj) → Res (List Pair × Option Obj) → Prop
  | .ok x s1, r2 =>
    (C.y = [] ∧ ∃ s2, r2 = .ok x s2 ∧ XRel C s1 s2) ∨
    (C.y ≠ [] ∧ ∃ b s2 k, After C s1 s2 b ∧ r2 = if b then fieldsLoop pv2 d none k x.1 x.2 s2 else .ok x s2)
  | .err e, r2 => C.Q e ∨ ∃ e', r2 = .err e' ∧ C.E e e'
  | .panic, _ => True
  | .oof, _ => True

theorem fields_two (d : Nat) : ∀ (n m : Nat), n ≤ m → ∀ (s1 s2 : PState), XRel C s1 s2 → ∀ (ps : List Pair) (par : Option Obj),
    XLoop C pv2 d (fieldsLoop pv1 d none n ps par s1) (fieldsLoop pv2 d none m ps par s2)
  | 0, _, _, _, _, _, _, _ => trivial
  | n + 1, 0, h, _, _, _, _, _ => absurd h (by omega)
  | n + 1, m + 1, h, s1, s2, hs, ps, par => by
    have h1 := field_two hpv hs ps par d
    simp only [fieldsLoop, bind, P.bind]
    cases e1 : parseFieldValuePair pv1 ps par d none s1 with
    | ok x t1 =>
      obtain ⟨b, ps', par'⟩ := x
      rw [e1] at h1
      rcases h1 with ⟨t2, e2, hs', hb, hb'⟩ | ⟨hy, rfl, b', t2, e2, ha⟩
      · rw [e2]
        cases b with
        | true => exact fields_two d n m (by omega) t1 t2 hs' ps' par'
        | false => exact .inl ⟨hb' rfl, t2, rfl, hs'⟩
      · rw [e2]
        refine .inr ⟨hy, b', t2, m, ha, ?_⟩
        cases b' <;> rfl
    | err e =>
      rw [e1] at h1
      rcases h1 with h1 | ⟨e', e2, h1⟩
      · exact .inl h1
      · rw [e2]; exact .inr ⟨e', rfl, h1⟩
    | panic => trivial
    | oof => trivial

/-- The end of `parse_obj_stream`. -/
def closeObj (x : List Pair × Option Obj) : P Obj := do
  let id ← genId
  pure (Obj.fromPairsUnchecked id x.1 x.2)

omit hpv [Unicode] in
theorem closeObj_eq (x : List Pair × Option Obj) (s : PState) : closeObj x s = .ok (.mk s.rt.curId x.1 x.2)
    { s with rt := s.rt.after { s.rt.toShared with curId := s.rt.curId + 1 } } := rfl

/-- Outcomes for the main text. -/
def XMain (C : XCtx) (pv2 : PV) : Res Obj → Res Obj → Prop
  | .ok o s1, r2 =>
    (C.y = [] ∧ ∃ s2, r2 = .ok o s2 ∧ XRel C s1 s2) ∨
    (C.y ≠ [] ∧ ∃ t1 b s2 k, After C t1 s2 b ∧ closeObj (o.pairs, o.parent) t1 = .ok o s1 ∧
      r2 = ((if b then fieldsLoop pv2 1 none k o.pairs o.parent else pure (o.pairs, o.parent)) >>= closeObj) s2)
  | .err e, r2 => C.Q e ∨ ∃ e', r2 = .err e' ∧ C.E e e'
  | .panic, _ => True
  | .oof, _ => True

theorem main_two (hs : XRel C s1 s2) : XMain C pv2 (parseObjStream pv1 s1) (parseObjStream pv2 s2) := by
  have hd : ∀ pv : PV, parseObjStream pv = (do
      if !(← findCharP) then closeObj ([], none)
      else (withBound fun n => fieldsLoop pv 1 none n [] none) >>= closeObj) := fun _ => rfl
  rw [hd, hd]
  rcases findChar_two hs with ⟨t1, t2, e1, e2, h, hf⟩ | ⟨t1, t2, hy, e1, e2, h⟩ | ⟨t1, t2, b, hy, e1, e2, h, -⟩
  · simp only [bind, P.bind, e1, e2, Bool.not_true]
    change XMain C pv2 (P.bind (fieldsLoop pv1 1 none (t1.stream.rest.length + 1) [] none) closeObj t1)
      (P.bind (fieldsLoop pv2 1 none (t2.stream.rest.length + 1) [] none) closeObj t2)
    unfold P.bind
    have h1 := fields_two hpv 1 (t1.stream.rest.length + 1) (t2.stream.rest.length + 1) (by rw [h.rest]; simp) t1 t2 h [] none
    revert h1
    cases e1 : fieldsLoop pv1 1 none (t1.stream.rest.length + 1) [] none t1 with
    | ok x u1 =>
      rintro (⟨hy, u2, e2, hu⟩ | ⟨hy, b, u2, k, ha, e2⟩)
      · rw [e2]
        simp only [closeObj_eq]
        refine .inl ⟨hy, _, by rw [hu.rt], ?_⟩
        exact ⟨hu.file1, hu.file2, hu.rest, hu.pos, hu.globals, hu.inc, rfl, hu.live, hu.files⟩
      · rw [e2]
        refine .inr ⟨hy, u1, b, u2, k, ha, rfl, ?_⟩
        cases b <;> rfl
    | err e =>
      rintro (h1 | ⟨e', e2, h1⟩)
      · exact .inl h1
      · rw [e2]; exact .inr ⟨e', rfl, h1⟩
    | panic => intro; trivial
    | oof => intro; trivial
  · simp only [bind, P.bind, e1, e2, Bool.not_false, if_true, closeObj_eq]
    refine .inl ⟨hy, _, by rw [h.rt], ?_⟩
    exact ⟨h.file1, h.file2, h.rest, h.pos, h.globals, h.inc, rfl, h.live, h.files⟩
  · simp only [bind, P.bind, e1, e2, Bool.not_false, if_true]
    refine .inr ⟨hy, t1, b, t2, t2.stream.rest.length + 1, h, rfl, ?_⟩
    cases b <;> rfl

end

end Over
