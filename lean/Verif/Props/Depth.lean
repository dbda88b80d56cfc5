import Verif.Lemmas.Depth
import Verif.Props.Access
import Verif.Props.Literals
import Verif.Props.Scope

/-!
# C25: the depth limit

`Field.levelsL` (bracket levels of a document) and `Term.leadLevels` are in `Spec/Depth.lean`; where a `MaxDepth` error
points is `c25_points_at_bracket` (`Props/Parsing.lean`).
-/

namespace Over

section
variable [Unicode]

/-- The document and its levels. -/
theorem depths_doc (fs : FS) (file : Option Str) (stack : List Str) (d : List Field) (rt : Rt) (T : SemErr → Prop)
    {G : List Str} (hw : Watch T file) (hl : LoadQuiet fs G T (theLoader fs)) (hG : G ⊆ stack) :
    match meaning fs file stack d rt with
    | .ok _ => Field.levelsL d ≤ 63
    | .error e => T e → ¬ Field.levelsL d ≤ 63 := by
  have h : Depths T file (evalDoc fs file stack (theLoader fs) d) (Field.levelsL d ≤ 63) := by
    unfold evalDoc
    refine Depths.iff (.then (depths_fields hw hl hG d 1 [] none) fun x => .seq .fresh fun _ => .pure _) ?_
    unfold Fits
    omega
  have h1 := h ⟨[], [], rt⟩
  unfold meaning
  cases hm : evalDoc fs file stack (loadN fs (fs.nodes.length + 1)) d ⟨[], [], rt⟩ with
  | ok x => rw [hm] at h1; exact h1
  | error e => rw [hm] at h1; exact fun ht => (h1 ht).1

/-- C25: a document with more than 63 levels of brackets is never read by `from_str`, whatever the file system and the
process state. -/
theorem c25_too_deep_rejected (fs : FS) (rt : Rt) (text : Str) (d : List Field) (hd : SpDoc d text)
    (h : 63 < Field.levelsL d) : ∃ e, fromStr fs text rt = .err e := by
  cases hr : fromStr fs text rt with
  | err e => exact ⟨e, rfl⟩
  | panic => exact absurd hr (c24_from_str_no_panic fs text rt)
  | oof => exact absurd hr (c23_from_str_terminates fs text rt)
  | ok o s =>
    obtain ⟨d', st, h1, h2, -⟩ := c45_from_str_accepts fs text rt o s hr
    cases c49_one_document _ _ _ hd h1
    have := depths_doc fs none [] d rt (fun _ => False) (G := []) (fun _ h => h.elim) .nothing (List.nil_subset _)
    rw [h2] at this
    simp only at this
    omega

/-- C25: … nor by `from_file`. -/
theorem c25_too_deep_file_rejected (fs : FS) (rt : Rt) (path full text : Str) (hp : fs.resolve path = some full)
    (ht : fs.read path = .ok text) (d : List Field) (hd : SpDoc d text)
    (h : 63 < Field.levelsL d) : ∀ o s, fromFile fs path rt ≠ .ok o s := by
  intro o s hr
  obtain ⟨text', d', st, h0, h1, h2, -⟩ := c45_from_file_accepts fs path full rt o s hp hr
  rw [ht] at h0
  cases h0
  cases c49_one_document _ _ _ hd h1
  have := depths_doc fs (some path) [full] d rt (fun _ => False) (G := []) (fun _ h => h.elim) .nothing (List.nil_subset _)
  rw [h2] at this
  simp only at this
  omega

/-- C25: `from_str` reports exceeded depth in a (well-formed) text only if the text has more than 63 levels of brackets;
what stands in included files does not count. -/
theorem c25_only_too_deep (fs : FS) (rt : Rt) (text : Str) (d : List Field) (hd : SpDoc d text) (l c : Nat)
    (h : fromStr fs text rt = .err ⟨none, .maxDepth l c⟩) : 63 < Field.levelsL d := by
  have hm := c44_from_str_meaning fs text rt d hd
  rw [h] at hm
  cases he : meaning fs none [] d rt with
  | ok x => rw [he] at hm; exact hm.elim
  | error e =>
    rw [he] at hm
    have hrep : e.Reported ⟨none, .maxDepth l c⟩ := hm
    have e1 : e = .sem none .maxDepth := by
      cases hrep with
      | sem hk => generalize hkk : Kind.maxDepth l c = k at hk
                  cases hk <;> first | rfl | (simp only [reduceCtorEq, kindFromOver] at hkk)
      | malformed hx => rcases hx with ⟨p, hx⟩ | ⟨m, hx⟩ <;> simp at hx
    subst e1
    have := depths_doc fs none [] d rt (· = .sem none .maxDepth) (G := []) (by intro k hk; cases hk; rfl) (loadN_quiet fs (fun _ h => .inl h) _) (List.nil_subset _)
    rw [he] at this
    have := this rfl
    omega

/-- C25: at any place, brackets that exceed 63 levels, counted from the top and with nothing in front of them that
could fail first, are rejected with `MaxDepth`, whatever precedes and follows. -/
theorem c25_place (fs : FS) (rt : Rt) (A : List (Str × Str)) (u : Str) (p : Obj) (h : ReadsAt fs rt A u p)
    (ex : Expr) (e : Str) (he : SpExpr ex e) (h0 : ex.leadLevels ≠ 0) (hl : 63 < A.length + ex.leadLevels) :
    Rejected fs rt A u p e .maxDepth := by
  obtain ⟨st, -, hc⟩ := at_place h
  refine rejected_of_eval hc he (k := .maxDepth) ?_ (lead_expr ex _ _ _ h0 (by omega))
  rintro _ ⟨⟩
  exact ⟨_, _, rfl⟩

/-- C25: signs alone are never too deep: any number of them is read, at every place. -/
theorem c25_signs (fs : FS) (rt : Rt) (A : List (Str × Str)) (u : Str) (p : Obj) (h : ReadsAt fs rt A u p)
    (y : Str) (hy : FieldName y) (hn : NotNamed p.pairs y) (signs : Str) (hs : ∀ c ∈ signs, c = '-' ∨ c = '+')
    (n : Nat) (lit : Str) (hl : IntLit n lit) :
    ∃ p', ReadsAt fs rt A (u ++ c!"\n" ++ y ++ c!":" ++ (signs ++ lit)) p' ∧
      p'.pairs = p.pairs ++ [.mk y (.int ((-1) ^ signs.count '-' * n))] := by
  obtain ⟨st, -, hc⟩ := at_place h
  have key : ∀ signs : Str, (∀ c ∈ signs, c = '-' ∨ c = '+') → ∃ t, SpTerm t (signs ++ lit) ∧
      ∀ ps d, evalTerm fs none [] (theLoader fs) t ps d st = .ok (.int ((-1) ^ signs.count '-' * n), st) := by
    intro signs
    induction signs with
    | nil =>
      intro _
      refine ⟨.int n, .int hl, fun ps d => ?_⟩
      simp only [evalTerm, List.count_nil, pow_zero, one_mul]
      rfl
    | cons c r ih =>
      intro hs
      obtain ⟨t, h1, h2⟩ := ih fun c hc => hs c (List.mem_cons_of_mem _ hc)
      rcases hs c (List.mem_cons_self ..) with rfl | rfl
      · refine ⟨.neg t, .neg h1, fun ps d => ?_⟩
        simp only [evalTerm]
        rw [EM.bind_ok (h2 ps (d + 1))]
        simp only [applyUn, List.count_cons_self, pow_succ]
        show Except.ok _ = _
        congr 3
        ring
      · refine ⟨.pos t, .pos h1, fun ps d => ?_⟩
        simp only [evalTerm]
        rw [EM.bind_ok (h2 ps (d + 1))]
        simp only [applyUn]
        rw [List.count_cons_of_ne (by decide)]
        rfl
  obtain ⟨t, h1, h2⟩ := key signs hs
  have hsp : SpExpr (.mk t []) (signs ++ lit) := by
    have := SpExpr.mk h1 .nil
    simpa using this
  obtain ⟨-, -, h3⟩ := field_at hc hy hn hsp
  obtain ⟨-, p', h4, h5, -⟩ := h3 _ st (by rw [evalExpr_term]; exact h2 _ _)
  exact ⟨p', h4, h5⟩

end

section
attribute [local instance] sampleUnicode

/-- Opening brackets, and the expression they spell. -/
def sampleDeep : Nat → Expr
  | 0 => .mk (.tup []) []
  | n + 1 => .mk (.arr [sampleDeep n]) []

/-- The text of `sampleDeep`. -/
def sampleDeepText : Nat → Str
  | 0 => c!"()"
  | n + 1 => '[' :: (sampleDeepText n ++ c!"]")

theorem sampleDeep_spelled : ∀ n, SpExpr (sampleDeep n) (sampleDeepText n)
  | 0 => .mk (s := c!"()") (u := []) (.tup (s := []) (.nil .nil)) .nil
  | n + 1 => by
    have h := SpExpr.mk (.arr (.cons .nil (sampleDeep_spelled n) (.nil .nil) (.inl rfl))) .nil
    simpa [sampleDeep, sampleDeepText] using h

theorem sampleDeep_lead : ∀ n, (sampleDeep n).leadLevels = n + 1
  | 0 => rfl
  | n + 1 => by
    simp only [sampleDeep, Expr.leadLevels, Term.leadLevels, sampleDeep_lead n]; omega

theorem sampleDeep_levels : ∀ n, (sampleDeep n).levels = n + 1
  | 0 => rfl
  | n + 1 => by
    simp only [sampleDeep, Expr.levels, Term.levels, Expr.levelsL, OpTerm.levelsL, sampleDeep_levels n]; omega

attribute [local irreducible] ReadsAt Rejected in
/-- Inside one object, any 63 or more brackets in a row are too deep, but 100 signs are not. -/
example : (∀ k, 62 ≤ k → Rejected noFiles startRt [(c!"x: 1", c!"a")] c!"b: 2" (.mk 0 [.mk c!"b" (.int 2)] none)
      (sampleDeepText k) .maxDepth) ∧
    ∃ p', ReadsAt noFiles startRt [(c!"x: 1", c!"a")] (c!"b: 2" ++ c!"\n" ++ c!"y" ++ c!":" ++
        (List.replicate 101 '-' ++ c!"7")) p' ∧
      p'.pairs = [.mk c!"b" (.int 2)] ++ [.mk c!"y" (.int (-7))] := by
  refine ⟨fun k hk => c25_place _ _ _ _ _ sampleInside (sampleDeep k) _ (sampleDeep_spelled k)
    (by rw [sampleDeep_lead]; omega) (by rw [sampleDeep_lead]; simp; omega), ?_⟩
  obtain ⟨p', h1, h2⟩ := c25_signs _ _ _ _ _ sampleInside c!"y" (sampleFieldName 'y' (by decide))
    (by simp [NotNamed, Obj.pairs, Pair.field]) (List.replicate 101 '-')
    (by intro c hc; exact .inl (List.mem_replicate.1 hc).2) 7 c!"7" (sampleIntLit (by decide) (by decide))
  refine ⟨p', h1, h2.trans ?_⟩
  rw [List.count_replicate_self]
  norm_num [Obj.pairs]

/-- Documents that are too deep, with any number of levels; and 63 levels are read. -/
example : (∀ k, 63 ≤ k → ∃ d text, SpDoc d text ∧ 63 < Field.levelsL d ∧ ∃ e, fromStr noFiles text startRt = .err e) ∧
    (fromStr noFiles (c!"y:" ++ sampleDeepText 63) startRt).message =
      some c!"Exceeded maximum recursion depth (64) at line 1, column 66" ∧
    ∃ d, SpDoc d (c!"y:" ++ sampleDeepText 62) ∧ Field.levelsL d = 63 ∧
      (fromStr noFiles (c!"y:" ++ sampleDeepText 62) startRt).message = none := by
  have hy : SpTarget (.field c!"y") c!"y" := .field (sampleFieldName 'y' (by decide))
  refine ⟨fun k hk => ?_, by decide +kernel, [.mk (.field c!"y") (sampleDeep 62)], spOne hy (sampleDeep_spelled 62), ?_,
    by decide +kernel⟩
  · have h1 : SpDoc [.mk (.field c!"y") (sampleDeep k)] _ := spOne hy (sampleDeep_spelled k)
    have h2 : 63 < Field.levelsL [.mk (.field c!"y") (sampleDeep k)] := by
      simp only [Field.levelsL, sampleDeep_levels]; omega
    exact ⟨_, _, h1, h2, c25_too_deep_rejected noFiles startRt _ _ h1 h2⟩
  · simp only [Field.levelsL, sampleDeep_levels]; omega

end

end Over
