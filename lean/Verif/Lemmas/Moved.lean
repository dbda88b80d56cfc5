import Verif.Lemmas.Edit
import Verif.Lemmas.Paths
import Verif.Spec.Moved
import Mathlib.Data.List.Forall2

/-!
# Two runs that read the same files by other paths
-/

namespace Over

section lists
variable {K : Str → Str → Prop} (hK : ∀ a a' b b', K a a' → K b b' → (a = b ↔ a' = b'))
include hK

theorem contains_rel {l l' : List Str} (h : List.Forall₂ K l l') {a a' : Str} (ha : K a a') : l'.contains a' = l.contains a := by
  induction h with
  | nil => rfl
  | @cons b b' l l' hb _ ih =>
    simp only [List.contains_cons, ih]
    congr 1
    have := hK _ _ _ _ ha hb
    by_cases e : a = b
    · simp [e, this.1 e]
    · have e' : ¬ a' = b' := fun e' => e (this.2 e')
      simp [e, e']

theorem filter_rel {l l' : List Str} (h : List.Forall₂ K l l') {a a' : Str} (ha : K a a') :
    List.Forall₂ K (l.filter fun g => g != a) (l'.filter fun g => g != a') := by
  induction h with
  | nil => exact .nil
  | @cons b b' l l' hb _ ih =>
    have := hK _ _ _ _ hb ha
    by_cases e : b = a
    · rw [List.filter_cons_of_neg (by simp [e]), List.filter_cons_of_neg (by simp [this.1 e])]; exact ih
    · rw [List.filter_cons_of_pos (by simpa using e), List.filter_cons_of_pos (by simpa using fun e' => e (this.2 e'))]
      exact .cons hb ih

theorem get_rel {m m' : StrMap Value} (h : List.Forall₂ (fun e e' => K e.1 e'.1 ∧ e'.2 = e.2) m m') {a a' : Str} (ha : K a a') :
    StrMap.get m' a' = StrMap.get m a := by
  induction h with
  | nil => rfl
  | @cons b b' l l' hb _ ih =>
    obtain ⟨k, v⟩ := b
    obtain ⟨k', v'⟩ := b'
    obtain ⟨h1, rfl⟩ := hb
    have : k = a ↔ k' = a' := hK _ _ _ _ h1 ha
    unfold StrMap.get at ih ⊢
    by_cases e : k = a
    · rw [List.find?_cons_of_pos (by simp [this.1 e]), List.find?_cons_of_pos (by simp [e])]
    · rw [List.find?_cons_of_neg (by simpa using fun e' => e (this.2 e')), List.find?_cons_of_neg (by simpa using e)]
      exact ih

end lists

/-- Corresponding canonical paths. -/
def CanonRel (fs fs' : FS) (R : Option Str → Option Str → Prop) (c c' : Str) : Prop :=
  ∃ g g', R (some g) (some g') ∧ fs.isFile g = true ∧ fs.resolve g = some c ∧ fs'.resolve g' = some c'

/-- Corresponding files loaded and being read. -/
structure IncRel (fs fs' : FS) (R : Option Str → Option Str → Prop) (i j : Included) : Prop where
  cache : List.Forall₂ (fun e e' => CanonRel fs fs' R e.1 e'.1 ∧ e'.2 = e.2) i.cache j.cache
  opened : List.Forall₂ (CanonRel fs fs' R) i.opened j.opened

theorem isFile_resolve {fs : FS} {g : Str} (h : fs.isFile g = true) : ∃ c, fs.resolve g = some c := by
  unfold FS.isFile at h
  cases e : fs.resolve g with
  | none => rw [e] at h; cases h
  | some c => exact ⟨c, rfl⟩

/-- `FilesAlike` (`M` false) and `Holds` (`M` true). -/
structure MovedRel (M : Prop) (fs fs' : FS) (R : Option Str → Option Str → Prop) : Prop where
  kind : ∀ f f', R f f' → (f = none ↔ f' = none)
  meant : ∀ f f' p, R f f' → (∀ g, f = some g → fs.isFile g = true) → (fs.isFile (meantIn f p) = true ∨ ¬ M) →
    R (some (meantIn f p)) (some (meantIn f' p))
  isFile : ∀ g g', R (some g) (some g') → fs.isFile g = true → fs'.isFile g' = true
  isFile' : ¬ M → ∀ g g', R (some g) (some g') → fs.isFile g = false → fs'.isFile g' = false
  read : ∀ g g', R (some g) (some g') → fs.isFile g = true → fs'.read g' = fs.read g
  utf8 : ∀ g g' c c', R (some g) (some g') → fs.isFile g = true → fs.resolve g = some c → fs'.resolve g' = some c' → fs.utf8 c = true → fs'.utf8 c' = true
  utf8' : ¬ M → ∀ g g' c c', R (some g) (some g') → fs.resolve g = some c → fs'.resolve g' = some c' → fs.utf8 c = false → fs'.utf8 c' = false
  same : ∀ g g' h h', R (some g) (some g') → R (some h) (some h') → fs.isFile g = true → fs.isFile h = true →
    (fs.resolve g = fs.resolve h ↔ fs'.resolve g' = fs'.resolve h')

theorem FilesAlike.moved {fs fs' : FS} {R : Option Str → Option Str → Prop} (hA : FilesAlike fs fs' R) : MovedRel False fs fs' R where
  kind := hA.kind
  meant f f' p h1 h2 _ := hA.meant f f' p h1 h2
  isFile g g' h1 h2 := by rw [hA.isFile g g' h1, h2]
  isFile' _ g g' h1 h2 := by rw [hA.isFile g g' h1, h2]
  read := hA.read
  utf8 g g' c c' h1 _ h2 h3 h4 := by rw [hA.utf8 g g' c c' h1 h2 h3, h4]
  utf8' _ g g' c c' h1 h2 h3 h4 := by rw [hA.utf8 g g' c c' h1 h2 h3, h4]
  same := hA.same

theorem Holds.moved {fs fs' : FS} {R : Option Str → Option Str → Prop} (hA : Holds fs fs' R) : MovedRel True fs fs' R where
  kind := hA.kind
  meant f f' p h1 h2 h3 := hA.meant f f' p h1 h2 (h3.resolve_right (by simp))
  isFile := hA.isFile
  isFile' h := absurd True.intro h
  read := hA.read
  utf8 := hA.utf8
  utf8' h := absurd True.intro h
  same := hA.same

section
variable {M : Prop} {fs fs' : FS} {R : Option Str → Option Str → Prop} (hA : MovedRel M fs fs' R)
include hA

theorem canonRel_inj : ∀ a a' b b', CanonRel fs fs' R a a' → CanonRel fs fs' R b b' → (a = b ↔ a' = b') := by
  rintro a a' b b' ⟨g, g', h1, h2, h3, h4⟩ ⟨h, h', k1, k2, k3, k4⟩
  have := hA.same g g' h h' h1 k1 h2 k2
  rw [h3, h4, k3, k4] at this
  simpa using this

/-- The two texts being read. -/
def movedCtx (M : Prop) (fs fs' : FS) (R : Option Str → Option Str → Prop) (f f' : Option Str) (h : R f f') : XCtx :=
  ⟨[], f, f', fun e => M ∧ e.Missing, fun e e' => e'.kind = e.kind ∧ (R e.file e'.file ∨ e.file = none ∧ e'.file = none), fun _ => True,
    IncRel fs fs' R, fun _ => ⟨rfl, .inl h⟩, fun h => absurd rfl h⟩

variable [Unicode]

/-- Actions in corresponding files. -/
abbrev MovedPV (M : Prop) (fs fs' : FS) (R : Option Str → Option Str → Prop) (pv1 pv2 : PV) : Prop :=
  ∀ f f' (h : R f f'), (∀ g, f = some g → fs.isFile g = true) → XPV (movedCtx M fs fs' R f f' h) pv1 pv2

theorem moved_inc {pv1 pv2 : PV} (hpv : MovedPV M fs fs' R pv1 pv2) (f f' : Option Str) (hR : R f f')
    (hfile : ∀ g, f = some g → fs.isFile g = true) : XInc (movedCtx M fs fs' R f f' hR) fs fs' pv1 pv2 := by
  intro kind q l c s1 s2 hs _
  have hinj := canonRel_inj hA
  have hf1 : s1.stream.file = f := hs.file1
  have hf2 : s2.stream.file = f' := hs.file2
  have hfile' : ∀ g, f' = some g → fs'.isFile g = true := by
    rintro g rfl
    cases f with
    | none => exact absurd ((hA.kind _ _ hR).1 rfl) (by simp)
    | some g0 => exact hA.isFile _ _ hR (hfile _ rfl)
  have ht1 : includeTarget f q = some (meantIn f q) := includeTarget_eq (fun g hg => by
    obtain ⟨c, hc⟩ := isFile_resolve (hfile g hg); exact parent_of_resolve hc) q
  have ht2 : includeTarget f' q = some (meantIn f' q) := includeTarget_eq (fun g hg => by
    obtain ⟨c, hc⟩ := isFile_resolve (hfile' g hg); exact parent_of_resolve hc) q
  have hR'' := hA.meant f f' q hR hfile
  have hfail : ∀ k : Kind, (movedCtx M fs fs' R f f' hR).E ⟨f, k⟩ ⟨f', k⟩ := fun k => ⟨rfl, .inl hR⟩
  change XRes _ _ (P.bind (resolveInclude fs q l c) _ s1) (P.bind (resolveInclude fs' q l c) _ s2)
  generalize meantIn f q = g at *
  generalize meantIn f' q = g' at *
  cases hi : fs.isFile g with
  | false =>
    by_cases hM : M
    · have e1 : resolveInclude fs q l c s1 = .err ⟨f, .invalidIncludePath q l c⟩ := by
        simp only [resolveInclude, bind, P.bind, getFile, hf1, ht1, hi, Bool.not_false, if_true, fail]
      unfold P.bind
      rw [e1]
      exact .inl ⟨hM, _, _, _, rfl⟩
    have hR' := hR'' (.inr hM)
    have hisf := hA.isFile' hM _ _ hR' hi
    have e1 : resolveInclude fs q l c s1 = .err ⟨f, .invalidIncludePath q l c⟩ := by
      simp only [resolveInclude, bind, P.bind, getFile, hf1, ht1, hi, Bool.not_false, if_true, fail]
    have e2 : resolveInclude fs' q l c s2 = .err ⟨f', .invalidIncludePath q l c⟩ := by
      simp only [resolveInclude, bind, P.bind, getFile, hf2, ht2, hisf, Bool.not_false, if_true, fail]
    unfold P.bind
    rw [e1, e2]
    exact .inr ⟨_, rfl, hfail _⟩
  | true =>
    have hR' := hR'' (.inl hi)
    have hisf := hA.isFile _ _ hR' hi
    obtain ⟨cg, hcg⟩ := isFile_resolve hi
    obtain ⟨cg', hcg'⟩ := isFile_resolve hisf
    have hKg : CanonRel fs fs' R cg cg' := ⟨g, g', hR', hi, hcg, hcg'⟩
    cases hu1 : fs.utf8 cg with
    | false =>
      by_cases hM : M
      · have e1 : resolveInclude fs q l c s1 = .err ⟨f, .invalidIncludePath q l c⟩ := by
          simp only [resolveInclude, bind, P.bind, getFile, hf1, ht1, hi, hcg, hu1, Bool.not_false, Bool.not_true, if_true,
            Bool.false_eq_true, if_false, fail]
        unfold P.bind
        rw [e1]
        exact .inl ⟨hM, _, _, _, rfl⟩
      have hu := hA.utf8' hM _ _ _ _ hR' hcg hcg' hu1
      have e1 : resolveInclude fs q l c s1 = .err ⟨f, .invalidIncludePath q l c⟩ := by
        simp only [resolveInclude, bind, P.bind, getFile, hf1, ht1, hi, hcg, hu1, Bool.not_false, Bool.not_true, if_true,
          Bool.false_eq_true, if_false, fail]
      have e2 : resolveInclude fs' q l c s2 = .err ⟨f', .invalidIncludePath q l c⟩ := by
        simp only [resolveInclude, bind, P.bind, getFile, hf2, ht2, hisf, hcg', hu, Bool.not_false, Bool.not_true, if_true,
          Bool.false_eq_true, if_false, fail]
      unfold P.bind
      rw [e1, e2]
      exact .inr ⟨_, rfl, hfail _⟩
    | true =>
      have hu := hA.utf8 _ _ _ _ hR' hi hcg hcg' hu1
      have e1 : resolveInclude fs q l c s1 = .ok (g, cg) s1 := by
        simp only [resolveInclude, bind, P.bind, getFile, hf1, ht1, hi, hcg, hu1, Bool.not_true, Bool.false_eq_true, if_false]
        rfl
      have e2 : resolveInclude fs' q l c s2 = .ok (g', cg') s2 := by
        simp only [resolveInclude, bind, P.bind, getFile, hf2, ht2, hisf, hcg', hu, Bool.not_true, Bool.false_eq_true, if_false]
        rfl
      unfold P.bind
      rw [e1, e2]
      simp only
      change XRes _ _ (P.bind (storeCurrent fs) _ s1) (P.bind (storeCurrent fs') _ s2)
      have hinc : IncRel fs fs' R s1.inc s2.inc := hs.inc
      -- remember the current file
      have hstore : storeCurrent fs s1 = .panic ∨ ∃ st st' i j, storeCurrent fs s1 = .ok st { s1 with inc := i } ∧
          storeCurrent fs' s2 = .ok st' { s2 with inc := j } ∧ IncRel fs fs' R i j ∧
          (st = none ∧ st' = none ∨ ∃ d d', st = some d ∧ st' = some d' ∧ CanonRel fs fs' R d d') := by
        unfold storeCurrent
        rw [hf1, hf2]
        cases f with
        | none =>
          have : f' = none := (hA.kind _ _ hR).1 rfl
          subst this
          exact .inr ⟨none, none, s1.inc, s2.inc, rfl, rfl, hinc, .inl ⟨rfl, rfl⟩⟩
        | some f0 =>
          cases f' with
          | none => exact absurd ((hA.kind _ _ hR).2 rfl) (by simp)
          | some f0' =>
            obtain ⟨d, hd⟩ := isFile_resolve (hfile _ rfl)
            obtain ⟨d', hd'⟩ := isFile_resolve (hfile' _ rfl)
            have hKd : CanonRel fs fs' R d d' := ⟨f0, f0', hR, hfile _ rfl, hd, hd'⟩
            simp only [hd, hd']
            by_cases h8 : fs.utf8 d = true
            · right
              have hud := hA.utf8 _ _ _ _ hR (hfile _ rfl) hd hd' h8
              simp only [h8, hud, if_true]
              refine ⟨some d, some d', _, _, rfl, rfl, ⟨hinc.cache, ?_⟩, .inr ⟨d, d', rfl, rfl, hKd⟩⟩
              have hcont := contains_rel hinj hinc.opened hKd
              simp only [hcont]
              split
              · exact hinc.opened
              · exact .cons hKd hinc.opened
            · left
              simp only [h8]
              rfl
      rcases hstore with hpan | ⟨st, st', i, j, h1, h2, hij, hst⟩
      · unfold P.bind
        rw [hpan]
        trivial
      · unfold P.bind
        rw [h1, h2]
        simp only
        change XRes _ _ (P.bind getOpened _ { s1 with inc := i }) (P.bind getOpened _ { s2 with inc := j })
        unfold P.bind
        simp only [getOpened]
        rw [contains_rel hinj hij.opened hKg]
        by_cases hc : i.opened.contains cg = true
        · rw [if_pos hc, if_pos hc]
          refine .inr ⟨⟨f', .cyclicInclude q l c⟩, by simp only [fail, hf2], ?_⟩
          simp only [hf1]
          exact hfail _
        · rw [if_neg hc, if_neg hc]
          change XRes _ _ (P.bind (loadCached fs pv1 kind g cg) _ { s1 with inc := i })
            (P.bind (loadCached fs' pv2 kind g' cg') _ { s2 with inc := j })
          have hload : (match loadCached fs pv1 kind g cg { s1 with inc := i } with
              | .ok v t => ∃ i' j' rt', t = { s1 with inc := i', rt := rt' } ∧
                  loadCached fs' pv2 kind g' cg' { s2 with inc := j } = .ok v { s2 with inc := j', rt := rt' } ∧ IncRel fs fs' R i' j'
              | .err e => M ∧ e.Missing ∨
                  ∃ e', loadCached fs' pv2 kind g' cg' { s2 with inc := j } = .err e' ∧ (movedCtx M fs fs' R f f' hR).E e e'
              | .panic => True
              | .oof => True) := by
            unfold loadCached
            simp only
            rw [get_rel hinj hij.cache hKg]
            cases hget : StrMap.get i.cache cg with
            | some v => exact ⟨i, j, s1.rt, rfl, by rw [← hs.rt], hij⟩
            | none =>
              simp only [loadFile, hA.read _ _ hR' hi]
              cases hread : fs.read g with
              | error m => exact .inr ⟨_, rfl, rfl, .inr ⟨rfl, rfl⟩⟩
              | ok t =>
                simp only
                by_cases hk : kind = .str
                · simp only [if_pos hk]
                  exact ⟨⟨(cg, .str t) :: i.cache, i.opened⟩, ⟨(cg', .str t) :: j.cache, j.opened⟩, s1.rt, rfl, by rw [← hs.rt]; rfl,
                    ⟨.cons ⟨hKg, rfl⟩ hij.cache, hij.opened⟩⟩
                · simp only [if_neg hk]
                  have hx := xs_parseFileBody (hpv (some g) (some g') hR' (by rintro _ ⟨⟩; exact hi)) rfl kind
                    { s1 with inc := i, stream := Stream.ofString (some g) t, globals := [] }
                    { s2 with inc := j, stream := Stream.ofString (some g') t, globals := [] }
                    ⟨rfl, rfl, by simp [movedCtx, Stream.ofString], rfl, rfl, hij, hs.rt, .inl rfl, trivial⟩ trivial
                  unfold inFile
                  simp only
                  cases eb : parseFileBody pv1 kind { s1 with inc := i, stream := Stream.ofString (some g) t, globals := [] } with
                  | ok v s' =>
                    rw [eb] at hx
                    obtain ⟨s2', e3, hs', -⟩ := hx
                    rw [e3]
                    have hi' : IncRel fs fs' R s'.inc s2'.inc := hs'.inc
                    exact ⟨⟨(cg, v) :: s'.inc.cache, s'.inc.opened⟩, ⟨(cg', v) :: s2'.inc.cache, s2'.inc.opened⟩, s'.rt, rfl, by rw [← hs'.rt]; rfl,
                      ⟨.cons ⟨hKg, rfl⟩ hi'.cache, hi'.opened⟩⟩
                  | err e' =>
                    rw [eb] at hx
                    rcases hx with hx | ⟨e'', e3, h5⟩
                    · exact .inl hx
                    · rw [e3]; exact .inr ⟨_, rfl, h5⟩
                  | panic => trivial
                  | oof => trivial
          unfold P.bind
          cases el : loadCached fs pv1 kind g cg { s1 with inc := i } with
          | ok v t =>
            rw [el] at hload
            obtain ⟨i', j', rt', rfl, e3, hij'⟩ := hload
            rw [e3]
            rcases hst with ⟨rfl, rfl⟩ | ⟨d, d', rfl, rfl, hKd⟩
            · exact ⟨_, rfl, ⟨hs.file1, hs.file2, hs.rest, hs.pos, hs.globals, hij', rfl, hs.live, trivial⟩, trivial⟩
            · exact ⟨_, rfl, ⟨hs.file1, hs.file2, hs.rest, hs.pos, hs.globals, ⟨hij'.cache, filter_rel hinj hij'.opened hKd⟩, rfl, hs.live, trivial⟩,
                trivial⟩
          | err e' =>
            rw [el] at hload
            rcases hload with hload | ⟨e'', e3, h5⟩
            · exact .inl hload
            · rw [e3]
              exact .inr ⟨_, rfl, h5⟩
          | panic => trivial
          | oof => trivial

theorem moved_parseValue : ∀ n, MovedPV M fs fs' R (parseValue fs n) (parseValue fs' n)
  | 0 => fun _ _ _ _ _ _ _ _ _ _ => xs_oof
  | n + 1 => fun f f' h hf => xs_parseValueBody (moved_parseValue n f f' h hf) (moved_inc hA (moved_parseValue n) f f' h hf)

/-- The two runs, as far as the first tells it. -/
theorem moved_also (n : Nat) (f f' : Option Str) (h : R f f') (hf : ∀ g, f = some g → fs.isFile g = true) (t : Str) (rt : Rt) :
    (∀ o s, parseObjStream (parseValue fs n) (PState.init f t rt) = .ok o s →
      ∃ s', parseObjStream (parseValue fs' n) (PState.init f' t rt) = .ok o s' ∧ s'.rt = s.rt) ∧
    (∀ e, parseObjStream (parseValue fs n) (PState.init f t rt) = .err e → M ∧ e.Missing ∨
      ∃ e', parseObjStream (parseValue fs' n) (PState.init f' t rt) = .err e' ∧ e'.kind = e.kind ∧
        (R e.file e'.file ∨ e.file = none ∧ e'.file = none)) := by
  have := xs_parseObjStream (moved_parseValue hA n f f' h hf) rfl (PState.init f t rt) (PState.init f' t rt)
    ⟨rfl, rfl, by simp [movedCtx, PState.init, Stream.ofString], rfl, rfl, ⟨.nil, .nil⟩, rfl, .inl rfl, trivial⟩ trivial
  constructor
  · intro o s e
    rw [e] at this
    obtain ⟨s2, e2, hs, -⟩ := this
    exact ⟨s2, e2, hs.rt⟩
  · intro e' e
    rw [e] at this
    rcases this with h | ⟨e'', e2, h3⟩
    · exact .inl h
    · exact .inr ⟨e'', e2, h3.1, h3.2⟩

end

section
variable {fs fs' : FS} {R : Option Str → Option Str → Prop} (hA : FilesAlike fs fs' R)
include hA
variable [Unicode]

/-- The two runs, as long as the first does not panic. -/
theorem moved_run (n : Nat) (f f' : Option Str) (h : R f f') (hf : ∀ g, f = some g → fs.isFile g = true) (t : Str) (rt : Rt)
    (h1 : parseObjStream (parseValue fs n) (PState.init f t rt) ≠ .panic)
    (h2 : parseObjStream (parseValue fs n) (PState.init f t rt) ≠ .oof) :
    ReadAlike R (parseObjStream (parseValue fs n) (PState.init f t rt)) (parseObjStream (parseValue fs' n) (PState.init f' t rt)) := by
  have := moved_also hA.moved n f f' h hf t rt
  cases e : parseObjStream (parseValue fs n) (PState.init f t rt) with
  | ok o s =>
    obtain ⟨s2, e2, hs⟩ := this.1 _ _ e
    exact .inl ⟨o, s, s2, rfl, e2, hs⟩
  | err e' =>
    rcases this.2 _ e with ⟨h, -⟩ | ⟨e'', e2, h3⟩
    · exact h.elim
    · exact .inr (.inl ⟨e', e'', rfl, e2, h3⟩)
  | panic => exact absurd e h1
  | oof => exact absurd e h2

omit [Unicode] in
/-- The other way round. -/
theorem FilesAlike.symm : FilesAlike fs' fs (fun f' f => R f f') where
  kind f' f h := (hA.kind f f' h).symm
  meant f' f p h hf := hA.meant f f' p h (by
    rintro g rfl
    cases f' with
    | none => exact absurd ((hA.kind _ _ h).2 rfl) (by simp)
    | some g' => rw [← hA.isFile _ _ h]; exact hf _ rfl)
  isFile g' g h := (hA.isFile g g' h).symm
  read g' g h hf := (hA.read g g' h (by rw [← hA.isFile g g' h]; exact hf)).symm
  utf8 g' g c' c h h1 h2 := (hA.utf8 g g' c c' h h2 h1).symm
  same g' g k' k h1 h2 h3 h4 := (hA.same g g' k k' h1 h2 (by rw [← hA.isFile g g' h1]; exact h3)
    (by rw [← hA.isFile k k' h2]; exact h4)).symm

end

theorem ReadAlike.swap {R : Option Str → Option Str → Prop} {r r' : Res Obj} (h : ReadAlike (fun f' f => R f f') r' r) :
    ReadAlike R r r' := by
  rcases h with ⟨o, s, s', h1, h2, h3⟩ | ⟨e, e', h1, h2, h3, h4⟩ | ⟨h1, h2⟩
  · exact .inl ⟨o, s', s, h2, h1, h3.symm⟩
  · exact .inr (.inl ⟨e', e, h2, h1, h3.symm, h4.imp id fun h => ⟨h.2, h.1⟩⟩)
  · exact .inr (.inr ⟨h2, h1⟩)

end Over
