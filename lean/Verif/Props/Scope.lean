import Verif.Lemmas.Place
import Verif.Spec.Concrete

/-!
# C32, C33: plain variables and globals

`ReadsAt`, `Denotes` and `FailsWith` are in `Spec/Place.lean`.
-/

namespace Over

section
variable [Unicode]

/-! ## C32 -/

/-- C32: a plain variable denotes the field of that name defined so far in the directly enclosing object; if there is
none it is not found, whatever the outer objects and the parent define, and whatever follows. -/
theorem c32_variable (fs : FS) (rt : Rt) (A : List (Str × Str)) (u : Str) (p : Obj) (h : ReadsAt fs rt A u p) (x y : Str)
    (hx : FieldName x) (hy : FieldName y) (hn : NotNamed p.pairs y) :
    (∀ v, FirstNamed p.pairs x v → ∃ p', ReadsAt fs rt A (u ++ c!"\n" ++ y ++ c!":" ++ x) p' ∧
      p'.pairs = p.pairs ++ [.mk y v] ∧ p'.parent = p.parent) ∧
    (NotNamed p.pairs x → ∀ rest, WellFormed rest →
      FailsWith fs rt (nest A (u ++ c!"\n" ++ y ++ c!":" ++ x ++ c!"\n" ++ rest)) (.variableNotFound x)) := by
  obtain ⟨st, -, hc⟩ := at_place h
  obtain ⟨-, h2, h3⟩ := field_at hc hy hn (spVar hx.varName)
  refine ⟨?_, ?_⟩
  · intro v hv
    refine (h3 v st ?_).2
    rw [evalExpr_term]
    simp only [evalTerm, evalName_first hx hv]
    rfl
  · intro hv rest hr
    have := h2 (.sem none (.variableNotFound x)) rest hr (by
      rw [evalExpr_term]
      simp only [evalTerm, evalName_none hx hv]
      rfl)
    obtain ⟨kind, hk, h4⟩ := this.fails
    cases hk
    exact ⟨_, _, h4⟩

/-! ## C33 -/

/-- C33: defining a global: its name denotes the value from then on, and the object at that place does not change. -/
theorem c33_definition (fs : FS) (rt : Rt) (A : List (Str × Str)) (u : Str) (p : Obj) (h : ReadsAt fs rt A u p) (g y : Str)
    (hg : GlobalName g) (hy : FieldName y) (hn : NotNamed p.pairs y) (e : Str) (ex : Expr) (he : SpExpr ex e) (v : Value)
    (hv : Denotes fs rt A u p e v)
    (hnew : FailsWith fs rt (nest A (u ++ c!"\n" ++ y ++ c!":" ++ g)) (.globalNotFound g)) :
    ∃ p', ReadsAt fs rt A (u ++ c!"\n" ++ g ++ c!":" ++ e) p' ∧ p'.pairs = p.pairs ∧ p'.parent = p.parent ∧
      Denotes fs rt A (u ++ c!"\n" ++ g ++ c!":" ++ e) p' g v := by
  obtain ⟨st, -, hc⟩ := at_place h
  obtain ⟨st', hev⟩ := hv.eval hc he
  have hnone : StrMap.get st.globals g = none := by
    cases hgv : StrMap.get st.globals g with
    | none => rfl
    | some w =>
      obtain ⟨-, -, h3⟩ := field_at hc hy hn (spVar hg.varName)
      obtain ⟨-, p', ⟨-, -, o, s, h4, -⟩, -⟩ := h3 w st (by rw [evalGlobal_expr hg, hgv])
      obtain ⟨l, c, h5⟩ := hnew
      rw [h5] at h4
      cases h4
  obtain ⟨-, h2⟩ := hc _ _ (spOne hg.target he)
  rw [← text_field] at h2
  have hF : evalFields fs none [] (theLoader fs) [.mk (.global g) ex] (1 + A.length) p.pairs p.parent st =
      .ok ((p.pairs, p.parent), st'.define g v) := by
    rw [evalFields_global, hnone, hev]
  obtain ⟨h3, i, h4⟩ := h2 _ _ _ hF
  refine ⟨_, h4, rfl, rfl, ?_⟩
  obtain ⟨st2, hG2, hc2⟩ := at_place h4
  obtain ⟨-, -, h5⟩ := field_at (p := .mk i p.pairs p.parent) hc2 hy hn (spVar hg.varName)
  obtain ⟨-, p2, h6, h7, -⟩ := h5 v st2 (by
    rw [evalGlobal_expr hg]
    have : StrMap.get st2.globals g = some v := by
      rw [hG2.unique h3]; exact StrMap.get_insert_self _ _ _
    rw [this])
  exact ⟨y, p2, hy, hn, h6, h7⟩

/-- C33: a global keeps its value everywhere behind its definition.  If `g` denotes `v` behind the definitions `u` at
the place `A`, and any further definitions `t` follow, then `g` denotes `v` at every place `B` at the end of the
resulting text (the same place, deeper inside the objects that `t` opens, or outside of those that were closed). -/
theorem c33_visible_everywhere (fs : FS) (rt : Rt) (A : List (Str × Str)) (u : Str) (p : Obj) (h : ReadsAt fs rt A u p)
    (g : Str) (hg : GlobalName g) (v : Value) (hv : Denotes fs rt A u p g v) (t : Str) (ht : WellFormed t)
    (B : List (Str × Str)) (w : Str) (q : Obj) (hB : ReadsAt fs rt B w q)
    (heq : nest B w = nest A (u ++ c!"\n" ++ t)) (y : Str) (hy : FieldName y) (hn : NotNamed q.pairs y) :
    ∃ q', ReadsAt fs rt B (w ++ c!"\n" ++ y ++ c!":" ++ g) q' ∧ q'.pairs = q.pairs ++ [.mk y v] ∧
      q'.parent = q.parent := by
  obtain ⟨G, hG, hgv⟩ := denotes_global h hg hv
  obtain ⟨st, hG1, hc⟩ := at_place h
  cases hG1.unique hG
  obtain ⟨dt, hdt⟩ := ht
  obtain ⟨h1, h2⟩ := hc dt t hdt
  obtain ⟨st2, hG2, hc2⟩ := at_place hB
  have e1 : u ++ '\n' :: t = u ++ c!"\n" ++ t := by simp
  have hget : StrMap.get st2.globals g = some v := by
    obtain ⟨-, -, o, s, hB1, -⟩ := hB
    cases hev : evalFields fs none [] (theLoader fs) dt (1 + A.length) p.pairs p.parent st with
    | error e =>
      have := h1 e hev
      rw [e1, ← heq, hB1] at this
      exact this.elim
    | ok x =>
      obtain ⟨⟨ps', par'⟩, st'⟩ := x
      obtain ⟨h3, -⟩ := h2 ps' par' st' hev
      rw [e1, ← heq] at h3
      rw [hG2.unique h3]
      exact globals_keep hev hgv
  obtain ⟨-, -, h5⟩ := field_at hc2 hy hn (spVar hg.varName)
  exact (h5 v st2 (by rw [evalGlobal_expr hg, hget])).2

/-- C33: a global that the text does not define is not found, whatever included files define. -/
theorem c33_undefined (fs : FS) (rt : Rt) (A : List (Str × Str)) (u : Str) (p : Obj) (h : ReadsAt fs rt A u p)
    (d : List Field) (hd : SpDoc d (nest A u)) (g : Str) (hg : GlobalName g) (hno : g ∉ Field.defsL d) (y : Str)
    (hy : FieldName y) (hn : NotNamed p.pairs y) (rest : Str) (hr : WellFormed rest) :
    FailsWith fs rt (nest A (u ++ c!"\n" ++ y ++ c!":" ++ g ++ c!"\n" ++ rest)) (.globalNotFound g) := by
  obtain ⟨st, hG, hc⟩ := at_place h
  have hnone : StrMap.get st.globals g = none := by
    obtain ⟨d', st', b, h1, h2, h3⟩ := hG
    cases c49_one_document _ _ _ hd h1
    rw [← h3]
    exact globals_absent h2 hno rfl
  obtain ⟨-, h2, -⟩ := field_at hc hy hn (spVar hg.varName)
  obtain ⟨kind, hk, h4⟩ := (h2 _ rest hr (by rw [evalGlobal_expr hg, hnone])).fails
  cases hk
  exact ⟨_, _, h4⟩

/-- C33: a global that has a value cannot be defined again. -/
theorem c33_once (fs : FS) (rt : Rt) (A : List (Str × Str)) (u : Str) (p : Obj) (h : ReadsAt fs rt A u p) (g : Str)
    (hg : GlobalName g) (v : Value) (hv : Denotes fs rt A u p g v) (e : Str) (ex : Expr) (he : SpExpr ex e) :
    FailsWith fs rt (nest A (u ++ c!"\n" ++ g ++ c!":" ++ e)) (.duplicateGlobal g) := by
  obtain ⟨G, hG, hgv⟩ := denotes_global h hg hv
  obtain ⟨st, hG1, hc⟩ := at_place h
  cases hG1.unique hG
  obtain ⟨h1, -⟩ := hc _ _ (spOne hg.target he)
  rw [← text_field] at h1
  have := h1 (.sem none (.duplicateGlobal g)) (by
    rw [evalFields_global, hgv])
  obtain ⟨kind, hk, h4⟩ := this.fails
  cases hk
  exact ⟨_, _, h4⟩

/-- C33: the globals of a file are not visible in the files it includes: whether or not a global is defined in front
of it, an include yields the same object (ids included). -/
theorem c33_not_visible_in_included_files (fs : FS) (rt : Rt) (A : List (Str × Str)) (u : Str) (p : Obj)
    (h : ReadsAt fs rt A u p) (g y : Str) (hg : GlobalName g) (hy : FieldName y) (hn : NotNamed p.pairs y)
    (hnew : FailsWith fs rt (nest A (u ++ c!"\n" ++ y ++ c!":" ++ g)) (.globalNotFound g)) (n : Nat) (lit : Str)
    (hl : IntLit n lit) (path b : Str) (hb : StrBody path b) (v : Value) :
    Denotes fs rt A u p (c!"<\"" ++ b ++ c!"\">") v ↔
      ∃ p', ReadsAt fs rt A (u ++ c!"\n" ++ g ++ c!":" ++ lit) p' ∧ p'.pairs = p.pairs ∧
        Denotes fs rt A (u ++ c!"\n" ++ g ++ c!":" ++ lit) p' (c!"<\"" ++ b ++ c!"\">") v := by
  have hlit : SpExpr (.mk (.int n) []) lit := by
    have := SpExpr.mk (.int hl) .nil
    simpa using this
  obtain ⟨st, hG, hc⟩ := at_place h
  have hnone : StrMap.get st.globals g = none := by
    cases hgv : StrMap.get st.globals g with
    | none => rfl
    | some w =>
      obtain ⟨-, -, h3⟩ := field_at hc hy hn (spVar hg.varName)
      obtain ⟨-, p', ⟨-, -, o, s, h4, -⟩, -⟩ := h3 w st (by rw [evalGlobal_expr hg, hgv])
      obtain ⟨l, c, h5⟩ := hnew
      rw [h5] at h4
      cases h4
  have hF : evalFields fs none [] (theLoader fs) [.mk (.global g) (.mk (.int n) [])] (1 + A.length) p.pairs p.parent st =
      .ok ((p.pairs, p.parent), st.define g (.int n)) := by
    have : evalExpr fs none [] (theLoader fs) (.mk (.int n) []) p.pairs (1 + A.length) st = .ok (.int n, st) := by
      rw [evalExpr_term]; simp only [evalTerm]; rfl
    rw [evalFields_global, hnone, this]
  -- the definition of the global followed by the include, as one continuation of `u`
  have two : ∀ (y : Str), FieldName y → NotNamed p.pairs y →
      evalFields fs none [] (theLoader fs) ([.mk (.global g) (.mk (.int n) [])] ++
        [.mk (.field y) (.mk (.incl (.mk (.str path) [])) [])]) (1 + A.length) p.pairs p.parent st =
      match evalExpr fs none [] (theLoader fs) (.mk (.incl (.mk (.str path) [])) []) p.pairs (1 + A.length) st with
      | .error e => .error e
      | .ok (v, st') => .ok ((p.pairs ++ [.mk y v], p.parent), { st' with globals := (st.define g (.int n)).globals }) := by
    intro y hy hn
    rw [evalFields_append, hF]
    simp only []
    rw [evalFields_one, if_neg (notNamed_mem hn), evalIncludeStr, evalIncludeStr]
    by_cases hk : 1 + A.length + 1 > 64
    · rw [if_pos hk, if_pos hk]
    · rw [if_neg hk, if_neg hk]
      obtain ⟨ho1, ho2⟩ := evalInclude_oblivious fs (fs.nodes.length + 1) none [] .obj path st (st.define g (.int n)).globals
      cases hev : evalInclude fs none [] (theLoader fs) .obj path st with
      | error e =>
        have := ho2 e hev
        rw [show st.define g (.int n) = { st with globals := (st.define g (.int n)).globals } from rfl, this]
      | ok x =>
        obtain ⟨w, st'⟩ := x
        obtain ⟨-, this⟩ := ho1 w st' hev
        rw [show st.define g (.int n) = { st with globals := (st.define g (.int n)).globals } from rfl, this]
  have text2 : ∀ y : Str, u ++ '\n' :: ((g ++ ':' :: lit) ++ '\n' :: (y ++ ':' :: (c!"<\"" ++ b ++ c!"\">"))) =
      u ++ c!"\n" ++ g ++ c!":" ++ lit ++ c!"\n" ++ y ++ c!":" ++ (c!"<\"" ++ b ++ c!"\">") := by
    intro y; simp
  have sp2 : ∀ y : Str, FieldName y → SpDoc ([.mk (.global g) (.mk (.int n) [])] ++
        [.mk (.field y) (.mk (.incl (.mk (.str path) [])) [])])
        ((g ++ ':' :: lit) ++ '\n' :: (y ++ ':' :: (c!"<\"" ++ b ++ c!"\">"))) :=
    fun y hy => spDoc_append (spOne (.field hy) (spInclude hb)) _ _ (spOne hg.target hlit)
  constructor
  · intro hd
    obtain ⟨st', hev⟩ := hd.eval hc (spInclude hb)
    obtain ⟨-, h2⟩ := hc _ _ (spOne hg.target hlit)
    obtain ⟨-, i, h4⟩ := h2 _ _ _ hF
    rw [← text_field] at h4
    refine ⟨_, h4, rfl, ?_⟩
    obtain ⟨-, h5⟩ := hc _ _ (sp2 y hy)
    have h6 := two y hy hn
    rw [hev] at h6
    obtain ⟨-, j, h7⟩ := h5 _ _ _ h6
    rw [text2] at h7
    exact ⟨y, _, hy, hn, h7, rfl⟩
  · rintro ⟨p', hp', hpp, y', p2, hy', hn', hr, hp2⟩
    rw [hpp] at hn' hp2
    obtain ⟨h8, h5⟩ := hc _ _ (sp2 y' hy')
    rw [text2] at h8 h5
    obtain ⟨-, -, o, s, hr1, hr2⟩ := hr
    have h6 := two y' hy' hn'
    cases hev : evalExpr fs none [] (theLoader fs) (.mk (.incl (.mk (.str path) [])) []) p.pairs (1 + A.length) st with
    | error e =>
      rw [hev] at h6
      have := h8 e h6
      rw [hr1] at this
      exact this.elim
    | ok x =>
      obtain ⟨w, st'⟩ := x
      rw [hev] at h6
      obtain ⟨-, j, ⟨-, -, o', s', h7, h9⟩⟩ := h5 _ _ _ h6
      rw [hr1] at h7
      cases h7
      have := (hr2.unique h9).1
      rw [hp2] at this
      simp [Obj.pairs] at this
      subst this
      obtain ⟨-, -, h10⟩ := field_at hc hy' hn' (spInclude hb)
      obtain ⟨-, p3, h11, h12, -⟩ := h10 v st' hev
      exact ⟨y', p3, hy', hn', h11, h12⟩

end

/-! ## Examples -/

section
attribute [local instance] sampleUnicode

/-- `x: 1` in front of the field `a`, which holds an object with `b: 2`. -/
theorem sampleInside : ReadsAt noFiles startRt [(c!"x: 1", c!"a")] c!"b: 2" (.mk 0 [.mk c!"b" (.int 2)] none) := by
  obtain ⟨s1, h1⟩ : ∃ s, fromStr noFiles c!"x: 1" startRt = .ok (.mk 0 [.mk c!"x" (.int 1)] none) s :=
    Res.gives_ok (by decide +kernel)
  obtain ⟨s2, h2⟩ : ∃ s, fromStr noFiles c!"b: 2" startRt = .ok (.mk 0 [.mk c!"b" (.int 2)] none) s :=
    Res.gives_ok (by decide +kernel)
  obtain ⟨s3, h3⟩ : ∃ s, fromStr noFiles (nest [(c!"x: 1", c!"a")] c!"b: 2") startRt =
      .ok (.mk 1 [.mk c!"x" (.int 1), .mk c!"a" (.obj (.mk 0 [.mk c!"b" (.int 2)] none))] none) s :=
    Res.gives_ok (by decide +kernel)
  refine ⟨?_, wellFormed_of_read h2, _, s3, h3, .inside (ps := [.mk c!"x" (.int 1)]) rfl .here⟩
  intro l hl
  rw [List.mem_singleton.1 hl]
  exact ⟨wellFormed_of_read h1, sampleFieldName 'a' (by decide)⟩

attribute [local irreducible] ReadsAt FailsWith in
/-- Inside `a`, the variable `b` is known and `x` is not. -/
example : (∃ p', ReadsAt noFiles startRt [(c!"x: 1", c!"a")] (c!"b: 2" ++ c!"\n" ++ c!"y" ++ c!":" ++ c!"b") p' ∧
      p'.pairs = [.mk c!"b" (.int 2)] ++ [.mk c!"y" (.int 2)] ∧ p'.parent = none) ∧
    ∀ rest, WellFormed rest → FailsWith noFiles startRt
      (nest [(c!"x: 1", c!"a")] (c!"b: 2" ++ c!"\n" ++ c!"y" ++ c!":" ++ c!"x" ++ c!"\n" ++ rest))
      (.variableNotFound c!"x") := by
  have hy := sampleFieldName 'y' (by decide)
  have hn : NotNamed (Obj.mk 0 [.mk c!"b" (.int 2)] none).pairs c!"y" := by
    intro p hp; rw [List.mem_singleton.1 hp]; decide
  refine ⟨(c32_variable _ _ _ _ _ sampleInside c!"b" c!"y" (sampleFieldName 'b' (by decide)) hy hn).1 (.int 2)
    ⟨[], [], rfl, by simp⟩, (c32_variable _ _ _ _ _ sampleInside c!"x" c!"y" (sampleFieldName 'x' (by decide)) hy hn).2
    (by intro p hp; rw [List.mem_singleton.1 hp]; decide)⟩

theorem sampleGlobalName : GlobalName c!"@g" := ⟨'g', [], rfl, .inl (by decide), by simp⟩

/-- Does the run end with the error that the global `g` is not found? -/
def Res.globalMissing (g : Str) : Res Obj → Bool
  | .err ⟨none, .globalNotFound x _ _⟩ => x == g
  | _ => false

theorem globalMissing_fails {t g : Str} (h : (fromStr noFiles t startRt).globalMissing g = true) :
    FailsWith noFiles startRt t (.globalNotFound g) := by
  unfold FailsWith
  generalize fromStr noFiles t startRt = r at h
  unfold Res.globalMissing at h
  split at h
  · exact ⟨_, _, by rw [eq_of_beq h]⟩
  · cases h

/-- Inside `a`, the text `@g` denotes nothing yet; after `@g:7` it denotes 7. -/
example : ∃ p', ReadsAt noFiles startRt [(c!"x: 1", c!"a")] (c!"b: 2" ++ c!"\n" ++ c!"@g" ++ c!":" ++ c!"7") p' ∧
    p'.pairs = [.mk c!"b" (.int 2)] ∧ p'.parent = none ∧
    Denotes noFiles startRt [(c!"x: 1", c!"a")] (c!"b: 2" ++ c!"\n" ++ c!"@g" ++ c!":" ++ c!"7") p' c!"@g" (.int 7) := by
  have hy := sampleFieldName 'y' (by decide)
  have hn : NotNamed (Obj.mk 0 [.mk c!"b" (.int 2)] none).pairs c!"y" := by
    intro p hp; rw [List.mem_singleton.1 hp]; decide
  have h7 : SpExpr (.mk (.int 7) []) c!"7" := by
    have := SpExpr.mk (.int (sampleIntLit (n := 7) (c := '7') (by decide) (by decide))) .nil
    simpa using this
  refine c33_definition noFiles startRt _ _ _ sampleInside c!"@g" c!"y" sampleGlobalName hy hn c!"7" _ h7 (.int 7) ?_ ?_
  · obtain ⟨st, -, hc⟩ := at_place sampleInside
    obtain ⟨-, -, h⟩ := field_at hc hy hn h7
    obtain ⟨-, p', h1, h2, -⟩ := h (.int 7) st (by rw [evalExpr_term]; rfl)
    exact ⟨_, p', hy, hn, h1, h2⟩
  · exact globalMissing_fails (by decide +kernel)

/-- C33, what is not detected: a global defined while its own value is read is silently overwritten (`@a: {@a: 1 …}`),
and the outer value is the one that counts. -/
theorem c33_inner_definition_lost :
    ∃ s, fromStr noFiles c!"@a: {@a: 1 b: @a}  c: @a" startRt =
      .ok (.mk 1 [.mk c!"c" (.obj (.mk 0 [.mk c!"b" (.int 1)] none))] none) s :=
  Res.gives_ok (by decide +kernel)

end

end Over
