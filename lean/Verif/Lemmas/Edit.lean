import Verif.Lemmas.Extend3
import Verif.Spec.Edit

/-!
# A file, read in two file systems that differ only in its text

The text of the file that is being read does not matter for the other files: to include it would be a cycle.
-/

set_option linter.unusedSectionVars false

namespace Over

theorem FS.edit_edited {fs : FS} {path full text : Str} (h : fs.resolve path = some full) (h' : (StrMap.get fs.nodes full).isSome = true) :
    fs.Edited path text (fs.edit path text) where
  resolve := rfl
  utf8 := rfl
  target := ⟨full, h, h', by simp [FS.edit, h, StrMap.get]⟩
  others := by
    intro c hc
    have : full ≠ c := fun e => hc (e ▸ h)
    simp [FS.edit, h, StrMap.get, this]

section
variable {fs fs' : FS} {path text : Str} (he : fs.Edited path text fs')
include he

theorem FS.Edited.isFile (p : Str) : fs'.isFile p = fs.isFile p := by
  unfold FS.isFile
  rw [he.resolve]
  cases e : fs.resolve p with
  | none => rfl
  | some c =>
    simp only
    obtain ⟨full, h1, h2, h3⟩ := he.target
    by_cases hc : c = full
    · rw [hc, h3, h2]; rfl
    · rw [he.others c (by rw [h1]; simpa using fun h => hc h.symm)]

theorem FS.Edited.read_main : fs'.read path = .ok text := by
  obtain ⟨full, h1, h2, h3⟩ := he.target
  simp only [FS.read, he.resolve, h1, h3]

theorem FS.Edited.read_other {p full : Str} (h1 : fs.resolve p = some full) (h2 : fs.resolve path ≠ some full) (h3 : fs.isFile p = true) :
    fs'.read p = fs.read p := by
  simp only [FS.isFile, h1] at h3
  simp only [FS.read, he.resolve, h1, he.others full h2]
  cases e : StrMap.get fs.nodes full with
  | none => rw [e] at h3; cases h3
  | some r => rfl

end

variable [Unicode]

/-- Two readings of the same file `p` while the file `G` is being read. -/
def editCtx (fs : FS) (G p : Str) : XCtx :=
  ⟨[], some p, some p, fun _ => False, Eq, fun l => fs.resolve p ≠ some G → G ∈ l, fun i j => j = i, fun _ => rfl, fun h => absurd rfl h⟩

theorem xrel_eq {fs : FS} {G p : Str} {s1 s2 : PState} (h : XRel (editCtx fs G p) s1 s2) : s2 = s1 := by
  obtain ⟨⟨r1, p1, f1⟩, g1, i1, t1⟩ := s1
  obtain ⟨⟨r2, p2, f2⟩, g2, i2, t2⟩ := s2
  obtain ⟨h1, h2, h3, h4, h5, h6, h7, h8, h9⟩ := h
  simp only [editCtx, List.append_nil] at *
  subst h1 h2 h3 h4 h5 h6 h7
  rfl

section
variable {C : XCtx} {pv1 pv2 : PV} (hpv : XPV C pv1 pv2) (hy : C.y = [])
include hpv hy

theorem xs_fileLoop {α : Type} {k1 k2 : P α} {x : P α} (h0 : XS C Tr x x TrB) (h : XS C Tr k1 k2 TrB) :
    XS C Tr (do if !(← findCharP) then x else k1) (do if !(← findCharP) then x else k2) TrB := by
  intro s1 s2 hs ha
  rcases findChar_two hs with ⟨t1, t2, e1, e2, h1, hf⟩ | ⟨t1, t2, hy, e1, e2, h1⟩ | ⟨t1, t2, b, hn, e1, e2, h1, -⟩
  · simp only [bind, P.bind, e1, e2, Bool.not_true]
    exact h _ _ h1 trivial
  · simp only [bind, P.bind, e1, e2, Bool.not_false, if_true]
    exact h0 _ _ h1 trivial
  · exact absurd hy hn

theorem xs_arrFileLoop : ∀ (n m : Nat), n ≤ m → ∀ (vs : List Value) (t : Ty) (a : Bool),
    XS C Tr (arrFileLoop pv1 n vs t a) (arrFileLoop pv2 m vs t a) TrB
  | 0, _, _, _, _, _ => xs_oof
  | n + 1, m + 1, h, vs, t, a => by
    refine xs_fileLoop hpv hy (xs_pure fun _ _ => trivial) ?_
    refine xs_bind xs_getPos fun p => ?_
    refine xs_bind (xs_weak (hpv _ _ _ _ _ _)) fun v => ?_
    refine xs_bind (xs_weak (xs_arrStep _ _ _ _ _)) ?_
    rintro ⟨t', a'⟩
    exact xs_weak (xs_arrFileLoop n m (Nat.le_of_succ_le_succ h) _ _ _)

theorem xs_tupFileLoop : ∀ (n m : Nat), n ≤ m → ∀ (vs : List Value),
    XS C Tr (tupFileLoop pv1 n vs) (tupFileLoop pv2 m vs) TrB
  | 0, _, _, _ => xs_oof
  | n + 1, m + 1, h, vs => by
    refine xs_fileLoop hpv hy (xs_pure fun _ _ => trivial) ?_
    refine xs_bind xs_getPos fun p => ?_
    refine xs_bind (xs_weak (hpv _ _ _ _ _ _)) fun v => ?_
    exact xs_weak (xs_tupFileLoop n m (Nat.le_of_succ_le_succ h) _)

theorem xs_parseObjStream : XS C Tr (parseObjStream pv1) (parseObjStream pv2) TrB := by
  intro s1 s2 hs _
  have := main_two hpv hs
  cases e : parseObjStream pv1 s1 with
  | ok o t =>
    rw [e] at this
    rcases this with ⟨-, s, h1, h2⟩ | ⟨h, -⟩
    · exact ⟨s, h1, h2, trivial⟩
    · exact absurd hy h
  | err e' => rw [e] at this; exact this
  | panic => trivial
  | oof => trivial

theorem xs_parseFileBody (k : IncKind) : XS C Tr (parseFileBody pv1 k) (parseFileBody pv2 k) TrB := by
  cases k with
  | obj => exact xs_bind (xs_parseObjStream hpv hy) fun o => xs_pure fun _ _ => trivial
  | str => exact xs_panic
  | arr =>
    refine xs_bind (xs_withBound fun n m h => xs_arrFileLoop hpv hy n m h _ _ _) ?_
    rintro ⟨vs, t⟩
    exact xs_bind (xs_weak xs_genId) fun _ => xs_pure fun _ _ => trivial
  | tup =>
    refine xs_bind (xs_withBound fun n m h => xs_tupFileLoop hpv hy n m h _) fun vs => ?_
    exact xs_bind (xs_weak xs_genId) fun _ => xs_pure fun _ _ => trivial

end


/-! ## Includes -/

section
variable {fs fs' : FS} {main text : Str} (he : fs.Edited main text fs')
include he

theorem edit_resolveInclude (p : Str) (l c : Nat) : resolveInclude fs' p l c = resolveInclude fs p l c := by
  unfold resolveInclude
  simp only [he.isFile, he.resolve, he.utf8]

theorem edit_storeCurrent : storeCurrent fs' = storeCurrent fs := by
  funext s
  unfold storeCurrent
  simp only [he.resolve, he.utf8]

omit he in
/-- What a successful `resolveInclude` says. -/
theorem resolveInclude_ok {p path full : Str} {l c : Nat} {s s' : PState} (h : resolveInclude fs p l c s = .ok (path, full) s') :
    s' = s ∧ fs.isFile path = true ∧ fs.resolve path = some full := by
  simp only [resolveInclude, bind, P.bind, getFile] at h
  cases ht : includeTarget s.stream.file p with
  | none => rw [ht] at h; cases h
  | some path' =>
  rw [ht] at h
  simp only at h
  split at h
  · cases h
  · rename_i hf
    cases hr : fs.resolve path' with
    | none => rw [hr] at h; cases h
    | some full' =>
      rw [hr] at h
      simp only at h
      split at h
      · cases h
      · cases h
        exact ⟨rfl, by simpa using hf, hr⟩

theorem edit_loadCached {G : Str} (hG : fs.resolve main = some G) {pv1 pv2 : PV} (hpv : ∀ p, XPV (editCtx fs G p) pv1 pv2)
    (kind : IncKind) {path full : Str} (h1 : fs.isFile path = true) (h2 : fs.resolve path = some full) (h3 : full ≠ G) (s : PState)
    (hop : G ∈ s.inc.opened) :
    match loadCached fs pv1 kind path full s with
    | .ok v s' => loadCached fs' pv2 kind path full s = .ok v s' ∧ s'.stream = s.stream ∧ s'.globals = s.globals ∧ G ∈ s'.inc.opened
    | .err e => loadCached fs' pv2 kind path full s = .err e
    | .panic => True
    | .oof => True := by
  unfold loadCached
  cases e : StrMap.get s.inc.cache full with
  | some v => exact ⟨rfl, rfl, rfl, hop⟩
  | none =>
    have hr : fs'.read path = fs.read path := he.read_other h2 (by rw [hG]; simpa using fun h => h3 h.symm) h1
    simp only [loadFile, hr]
    cases er : fs.read path with
    | error m => rfl
    | ok t =>
      simp only
      by_cases hk : kind = .str
      · simp only [if_pos hk]; exact ⟨rfl, rfl, rfl, hop⟩
      · simp only [if_neg hk]
        have hx := xs_parseFileBody (hpv path) rfl kind { s with stream := Stream.ofString (some path) t, globals := [] }
          { s with stream := Stream.ofString (some path) t, globals := [] }
          ⟨rfl, rfl, by simp [editCtx], rfl, rfl, rfl, rfl, .inl rfl, fun _ => hop⟩ trivial
        unfold inFile
        cases eb : parseFileBody pv1 kind { s with stream := Stream.ofString (some path) t, globals := [] } with
        | ok v s' =>
          rw [eb] at hx
          obtain ⟨s2, e2, hs, -⟩ := hx
          rw [e2, xrel_eq hs]
          exact ⟨rfl, rfl, rfl, hs.files (by rw [h2]; simpa using h3)⟩
        | err e' =>
          rw [eb] at hx
          rcases hx with hx | ⟨e'', e2, rfl⟩
          · exact hx.elim
          · rw [e2]
        | panic => trivial
        | oof => trivial

theorem edit_inc {G : Str} (hG : fs.resolve main = some G) (pv1 pv2 : PV) (hpv : ∀ p, XPV (editCtx fs G p) pv1 pv2) (p : Str) :
    XInc (editCtx fs G p) fs fs' pv1 pv2 := by
  intro kind q l c s1 s2 hs _
  have hs12 := xrel_eq hs
  subst hs12
  change XRes _ _ (P.bind (resolveInclude fs q l c) _ s2) (P.bind (resolveInclude fs' q l c) _ s2)
  rw [edit_resolveInclude he]
  unfold P.bind
  cases e : resolveInclude fs q l c s2 with
  | err e' => exact .inr ⟨_, rfl, rfl⟩
  | panic => trivial
  | oof => trivial
  | ok x s' =>
    obtain ⟨path, full⟩ := x
    obtain ⟨rfl, h1, h2⟩ := resolveInclude_ok e
    simp only
    change XRes _ _ (P.bind (storeCurrent fs) _ s') (P.bind (storeCurrent fs') _ s')
    rw [edit_storeCurrent he]
    unfold P.bind
    cases e1 : storeCurrent fs s' with
    | err e' => exact .inr ⟨_, rfl, rfl⟩
    | panic => trivial
    | oof => trivial
    | ok st s3 =>
      have hst : ∃ F, fs.resolve p = some F ∧ st = some F ∧ s3 = { s' with inc := { s'.inc with
          opened := if s'.inc.opened.contains F then s'.inc.opened else F :: s'.inc.opened } } := by
        unfold storeCurrent at e1
        rw [hs.file1] at e1
        simp only [editCtx] at e1
        cases e2 : fs.resolve p with
        | none => rw [e2] at e1; cases e1
        | some F =>
          rw [e2] at e1
          simp only at e1
          split at e1
          · cases e1; exact ⟨F, rfl, rfl, rfl⟩
          · cases e1
      obtain ⟨F, hF, rfl, hs3⟩ := hst
      have hop : G ∈ s3.inc.opened := by
        rw [hs3]
        by_cases hFG : F = G
        · subst hFG
          simp only
          split
          · rename_i h; simpa using h
          · simp
        · have := hs.files (by rw [hF]; simpa using hFG)
          simp only
          split
          · exact this
          · exact List.mem_cons_of_mem _ this
      simp only
      change XRes _ _ (P.bind getOpened _ s3) (P.bind getOpened _ s3)
      unfold P.bind
      simp only [getOpened]
      by_cases hc : s3.inc.opened.contains full = true
      · rw [if_pos hc, if_pos hc]
        exact .inr ⟨_, rfl, rfl⟩
      · rw [if_neg hc, if_neg hc]
        have hfull : full ≠ G := by
          rintro rfl
          exact hc (by simpa using hop)
        change XRes _ _ (P.bind (loadCached fs pv1 kind path full) _ s3) (P.bind (loadCached fs' pv2 kind path full) _ s3)
        unfold P.bind
        have hl := edit_loadCached he hG hpv kind h1 h2 hfull s3 hop
        cases e4 : loadCached fs pv1 kind path full s3 with
        | ok v s4 =>
          rw [e4] at hl
          obtain ⟨e5, h4, h5, h6⟩ := hl
          rw [e5]
          refine ⟨_, rfl, ⟨?_, ?_, by simp [editCtx], rfl, rfl, rfl, rfl, .inl rfl, ?_⟩, trivial⟩
          · simp only [h4, hs3]; exact hs.file1
          · simp only [h4, hs3]; exact hs.file1
          · intro hp
            have : F ≠ G := fun h => hp (h ▸ hF)
            simp only [List.mem_filter]
            exact ⟨h6, by simpa using this.symm⟩
        | err e' => rw [e4] at hl; rw [hl]; exact .inr ⟨_, rfl, rfl⟩
        | panic => trivial
        | oof => trivial

theorem edit_parseValue {G : Str} (hG : fs.resolve main = some G) : ∀ n p, XPV (editCtx fs G p) (parseValue fs n) (parseValue fs' n)
  | 0, _ => fun _ _ _ _ _ _ => xs_oof
  | n + 1, p => xs_parseValueBody (edit_parseValue hG n p) (edit_inc he hG _ _ (edit_parseValue hG n) p)

/-- Reading the file in the one and in the other file system, with any text. -/
theorem edit_run {t : Str} {rt : Rt} {n : Nat} (h1 : parseObjStream (parseValue fs n) (PState.init (some main) t rt) ≠ .panic)
    (h2 : parseObjStream (parseValue fs n) (PState.init (some main) t rt) ≠ .oof) :
    parseObjStream (parseValue fs' n) (PState.init (some main) t rt) = parseObjStream (parseValue fs n) (PState.init (some main) t rt) := by
  obtain ⟨G, hG, -⟩ := he.target
  have := xs_parseObjStream (edit_parseValue he hG n main) rfl (PState.init (some main) t rt) (PState.init (some main) t rt)
    ⟨rfl, rfl, by simp [editCtx], rfl, rfl, rfl, rfl, .inl rfl, fun h => absurd hG h⟩ trivial
  cases e : parseObjStream (parseValue fs n) (PState.init (some main) t rt) with
  | ok o s =>
    rw [e] at this
    obtain ⟨s2, e2, hs, -⟩ := this
    rw [e2, xrel_eq hs]
  | err e' =>
    rw [e] at this
    rcases this with h | ⟨e'', e2, rfl⟩
    · exact h.elim
    · rw [e2]
  | panic => exact absurd e h1
  | oof => exact absurd e h2

omit [Unicode] in
theorem FS.Edited.back {t : Str} (hr : fs.read main = .ok t) : fs'.Edited main t fs where
  resolve := he.resolve.symm
  utf8 := he.utf8.symm
  target := by
    obtain ⟨G, h1, h2, h3⟩ := he.target
    refine ⟨G, by rw [he.resolve, h1], by rw [h3]; rfl, ?_⟩
    simp only [FS.read, h1] at hr
    cases e : StrMap.get fs.nodes G with
    | none => rw [e] at hr; cases hr
    | some r => rw [e] at hr; simp only at hr; rw [hr]
  others := fun c hc => (he.others c (he.resolve ▸ hc)).symm

omit he in
/-- Enough fuel: any amount that is enough. -/
theorem file_bound_irrelevant (fs : FS) {path contents c : Str} (rt : Rt) (hc : fs.resolve path = some c) {n m : Nat}
    (hn : contents.length + fs.size ≤ n) (hm : contents.length + fs.size ≤ m) :
    parseObjStream (parseValue fs n) (PState.init (some path) contents rt) =
      parseObjStream (parseValue fs m) (PState.init (some path) contents rt) := by
  have key : ∀ m, contents.length + fs.size ≤ m →
      parseObjStream (parseValue fs m) (PState.init (some path) contents rt) =
      parseObjStream (parseValue fs (contents.length + fs.size)) (PState.init (some path) contents rt) := by
    intro m hm
    obtain ⟨k, rfl⟩ := Nat.exists_eq_add_of_le hm
    rcases parseObjStream_ext (parseValue_ext fs (contents.length + fs.size) k)
      (PState.init (some path) contents rt) with h | h
    · have := @fromFileFuel_spec _ anyPanic fs _ path contents c rt hc (.inr True.intro) (Nat.le_refl _)
      simp only [wp, h] at this
    · exact h
  rw [key n hn, key m hm]

/-- `Obj::from_file` on the edited file reads the new text in the old file system. -/
theorem edited_reading {t : Str} (hr : fs.read main = .ok t) (rt : Rt) {n : Nat} (hn : text.length + fs.size ≤ n) :
    parseObjStream (parseValue fs n) (PState.init (some main) text rt) = fromFile fs' main rt := by
  obtain ⟨G, hG, -⟩ := he.target
  have hG' : fs'.resolve main = some G := by rw [he.resolve, hG]
  have e0 : fromFile fs' main rt = parseObjStream (parseValue fs' (fs'.fuel text)) (PState.init (some main) text rt) := by
    simp only [fromFile, he.read_main]
  have e1 := file_bound_irrelevant fs rt hG (contents := text) (n := n) (m := n + fs'.fuel text) hn (by omega)
  have e2 := file_bound_irrelevant fs' rt hG' (contents := text) (n := fs'.fuel text) (m := n + fs'.fuel text) (by simp only [FS.fuel]; omega)
    (by simp only [FS.fuel]; omega)
  rw [e0, e1, e2]
  have hno : ∀ (f : FS), f.resolve main = some G → text.length + f.size ≤ n + fs'.fuel text →
      parseObjStream (parseValue f (n + fs'.fuel text)) (PState.init (some main) text rt) ≠ .oof := by
    intro f hf hl h
    have := @fromFileFuel_spec _ anyPanic f _ main text G rt hf (.inr True.intro) hl
    simp only [wp, h] at this
  have n1 := hno fs hG (by omega)
  have n2 := hno fs' hG' (by simp only [FS.fuel]; omega)
  by_cases hp : parseObjStream (parseValue fs (n + fs'.fuel text)) (PState.init (some main) text rt) = .panic
  · by_cases hp' : parseObjStream (parseValue fs' (n + fs'.fuel text)) (PState.init (some main) text rt) = .panic
    · rw [hp, hp']
    · exact edit_run (he.back hr) hp' n2
  · exact (edit_run he hp n1).symm

end

end Over
