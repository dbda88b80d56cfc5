import Verif.Props.Depth
import Verif.Props.Writing

/-!
# C69: what is displayed can be pasted anywhere

`v.display` is `Display for Value` (`v.to_string()`); `ReadsAt`, `Rejected` are in `Spec/Place.lean`, `Value.nest` (how deep the
containers of a value nest) in `Spec/Nesting.lean`.
-/

namespace Over

theorem levelsL_append (a b : List Field) : Field.levelsL (a ++ b) = max (Field.levelsL a) (Field.levelsL b) := by
  induction a with
  | nil => simp [Field.levelsL]
  | cons f a ih =>
    obtain ⟨t, e⟩ := f
    simp only [List.cons_append, Field.levelsL, ih]
    omega

theorem nestDoc_levels : ∀ (ls : List (List Field × Str)) (d : List Field), ls.length ≤ Field.levelsL (nestDoc ls d)
  | [], _ => Nat.zero_le _
  | (b, y) :: ls, d => by
    have := nestDoc_levels ls d
    simp only [nestDoc, levelsL_append, Field.levelsL, Expr.levels, Term.levels, OpTerm.levelsL, List.length_cons]
    omega

section
variable [Unicode]

/-- A place is inside at most 63 objects. -/
theorem ReadsAt.inside {fs : FS} {rt : Rt} {A : List (Str × Str)} {u : Str} {p : Obj} (h : ReadsAt fs rt A u p) :
    A.length ≤ 63 := by
  obtain ⟨hA, ⟨du, hdu⟩, o, s, h1, -⟩ := h
  obtain ⟨ls, rfl, hls⟩ := layers_trees hA
  by_contra hlt
  have hd := spDoc_nest ls du u hls hdu
  have h2 := nestDoc_levels (ls.map (fun l => (l.1, l.2.2))) du
  simp only [List.length_map] at h2 hlt
  obtain ⟨e, he⟩ := c25_too_deep_rejected fs rt _ _ hd (by omega)
  rw [h1] at he
  cases he

theorem redo_value (fs : FS) (v : Value) (hw : WellTyped v) (hn : NamesOk v) :
    RedoVal fs none [] (theLoader fs) v := redo_all.1 v hw hn

/-- C69: the displayed text of a value whose names the parser accepts, pasted as the value of a new field at any place (any
number of objects deep, after any definitions), gives that field an equal value with the same data, when the place and the
containers of the value together are at most 63 deep. -/
theorem c69_paste (fs : FS) (rt : Rt) (A : List (Str × Str)) (u : Str) (p : Obj) (h : ReadsAt fs rt A u p)
    (v : Value) (hw : WellTyped v) (hn : NamesOk v) (hd : A.length + v.nest ≤ 63)
    (text : Str) (ht : v.display = some text) (y : Str) (hy : FieldName y) (hnew : NotNamed p.pairs y) :
    ∃ p' v', ReadsAt fs rt A (u ++ c!"\n" ++ y ++ c!":" ++ text) p' ∧ p'.pairs = p.pairs ++ [.mk y v'] ∧
      p'.parent = p.parent ∧ v'.data = v.data ∧ v'.eq v = true ∧ v.eq v' = true := by
  obtain ⟨st, -, hc⟩ := at_place h
  obtain ⟨v', k, he, hv⟩ := (redo_value fs v hw hn p.pairs (1 + A.length) st (by omega)).1 (by omega)
  obtain ⟨-, -, h3⟩ := field_at hc hy hnew (format_spells.1 v hn _ text ht)
  obtain ⟨-, p', h4, h5, h6⟩ := h3 v' _ he
  have hw' : WellTyped v' := by rw [← wellTyped_data.1, hv, wellTyped_data.1]; exact hw
  exact ⟨p', v', h4, h5, h6, hv, (c09_value_eq_iff _ _ hw' hw).2 hv, (c09_value_eq_iff _ _ hw hw').2 hv.symm⟩

/-- C69: deeper, the text is rejected with the depth error, whatever follows. -/
theorem c69_too_deep (fs : FS) (rt : Rt) (A : List (Str × Str)) (u : Str) (p : Obj) (h : ReadsAt fs rt A u p)
    (v : Value) (hw : WellTyped v) (hn : NamesOk v) (hd : 63 < A.length + v.nest)
    (text : Str) (ht : v.display = some text) : Rejected fs rt A u p text .maxDepth := by
  obtain ⟨st, -, hc⟩ := at_place h
  have hA := h.inside
  refine rejected_of_eval hc (format_spells.1 v hn _ text ht) (k := .maxDepth) ?_
    ((redo_value fs v hw hn p.pairs (1 + A.length) st (by omega)).2 (by omega))
  rintro _ ⟨⟩
  exact ⟨_, _, rfl⟩

omit [Unicode] in
theorem Innermost.wellTyped {path : List Str} {o p : Obj} (h : Innermost path o p) (ho : WellTypedObj o) :
    WellTypedObj p := by
  induction h with
  | here => exact ho
  | @inside y path o q p ps h1 h2 ih =>
    refine ih ?_
    cases ho with | mk hv hp =>
    simp only [Obj.pairs] at h1
    have := hv (.mk y (.obj q)) (by rw [h1]; simp)
    cases this with | obj h => exact h

theorem Innermost.namesOk {path : List Str} {o p : Obj} (h : Innermost path o p) (ho : NamesOkObj o) :
    NamesOkObj p := by
  induction h with
  | here => exact ho
  | @inside y path o q p ps h1 h2 ih =>
    refine ih ?_
    cases ho with | mk hf hnd hv hp =>
    simp only [Obj.pairs] at h1
    have := hv (.mk y (.obj q)) (by rw [h1]; simp)
    cases this with | obj h => exact h

/-- C69: these are exactly the values that can be pasted: a displayed text denotes the data it was displayed for only if the
names are accepted by the parser, the arrays carry their computed types, and the depth fits. -/
theorem c69_paste_iff (fs : FS) (rt : Rt) (A : List (Str × Str)) (u : Str) (p : Obj) (h : ReadsAt fs rt A u p)
    (v : Value) (text : Str) (ht : v.display = some text) (y : Str) (hy : FieldName y) (hnew : NotNamed p.pairs y) :
    (∃ p' v', ReadsAt fs rt A (u ++ c!"\n" ++ y ++ c!":" ++ text) p' ∧ p'.pairs = p.pairs ++ [.mk y v'] ∧
      v'.data = v.data) ↔ WellTyped v ∧ NamesOk v ∧ A.length + v.nest ≤ 63 := by
  constructor
  · rintro ⟨p', v', hr, hp, hv⟩
    have hr' := hr
    obtain ⟨hA, hu, o, s, h1, h2⟩ := hr
    have hrun : Runs fs rt (none, nest A (u ++ c!"\n" ++ y ++ c!":" ++ text)) (.ok o s) := h1 ▸ Runs.str _
    have hwp := h2.wellTyped (c26_parsed_well_typed fs rt _ o s hrun)
    have hnp := h2.namesOk (c27_parsed_names_ok fs rt _ o s hrun)
    have hmem : Pair.mk y v' ∈ p'.pairs := by rw [hp]; simp
    have hw : WellTyped v := by
      rw [← wellTyped_data.1, ← hv, wellTyped_data.1]
      cases hwp with | mk a b => exact a _ hmem
    have hn : NamesOk v := by
      rw [← namesOk_data.1, ← hv, namesOk_data.1]
      cases hnp with | mk _ _ a b => exact a _ hmem
    refine ⟨hw, hn, ?_⟩
    by_contra hd
    have hrej := c69_too_deep fs rt A u p h v hw hn (by omega) text ht
    obtain ⟨st, -, hc⟩ := at_place h
    obtain ⟨w, st', he, -⟩ := denotes_eval hc hy hnew (format_spells.1 v hn _ text ht) hr'
    have := (redo_value fs v hw hn p.pairs (1 + A.length) st (by have := h.inside; omega)).2 (by omega)
    rw [he] at this
    cases this
  · rintro ⟨hw, hn, hd⟩
    obtain ⟨p', v', h1, h2, -, h3, -⟩ := c69_paste fs rt A u p h v hw hn hd text ht y hy hnew
    exact ⟨p', v', h1, h2, h3⟩

/-- C69: values (of accepted names and computed types) that are displayed alike are equal, however deep. -/
theorem c69_display_injective (v w : Value) (hv : WellTyped v) (hw : WellTyped w) (hnv : NamesOk v) (hnw : NamesOk w)
    (h : v.display = w.display) : v.data = w.data ∧ v.eq w = true := by
  obtain ⟨text, ht⟩ := c20_display_total.1 v
  have hy : ∃ y : Str, FieldName y := ⟨c!"_", '_', [], rfl, .inr rfl, by simp, by decide⟩
  obtain ⟨y, hy⟩ := hy
  have h1 := spOne (.field hy) (format_spells.1 v hnv _ text ht)
  have h2 := spOne (.field hy) (format_spells.1 w hnw _ text (by rw [← ht]; exact h.symm))
  have h3 := c49_one_document _ _ _ h1 h2
  simp only [List.cons.injEq, Field.mk.injEq, and_true, true_and] at h3
  have hd := ast_inj.1 v w hv hw h3
  exact ⟨hd, (c09_value_eq_iff v w hv hw).2 hd⟩

omit [Unicode] in
/-- C69: arrays, tuples and objects are displayed as the values they are. -/
theorem c69_display_of_containers : (∀ a : Arr, a.display = a.toValue.display) ∧
    (∀ t : Tup, t.display = t.toValue.display) ∧ (∀ o : Obj, o.display = (Value.obj o).display) :=
  ⟨fun _ => rfl, fun _ => rfl, fun _ => by simp [Obj.display, Value.display, Value.format]⟩

end

/-! ## Examples -/

section
attribute [local instance] sampleUnicode

attribute [local irreducible] ReadsAt in
/-- C69 for the object of all kinds of values, inside an object: its text is spread over lines and indented. -/
example : (Value.obj sampleObj).display = some (c!"{\n    ^: {\n        a: -5\n    }\n    a: [\n        1/3\n" ++
      c!"        -2.0\n    ]\n    b: (\n        \"x\\\"\\n\"\n        null\n    )\n}") ∧
    ∃ text p' v', (Value.obj sampleObj).display = some text ∧
      ReadsAt noFiles startRt [(c!"x: 1", c!"a")] (c!"b: 2" ++ c!"\n" ++ c!"y" ++ c!":" ++ text) p' ∧
      p'.pairs = [.mk c!"b" (.int 2), .mk c!"y" v'] ∧ v'.eq (.obj sampleObj) = true := by
  refine ⟨by decide +kernel, ?_⟩
  obtain ⟨text, ht⟩ := c20_display_total.1 (.obj sampleObj)
  obtain ⟨p', v', h1, h2, -, -, h3, -⟩ := c69_paste noFiles startRt _ _ _ sampleInside (.obj sampleObj)
    (.obj sampleObj_wellTyped) (.obj sampleObj_namesOk) (by decide +kernel) text ht c!"y" (sampleFieldName 'y' (by decide))
    (by simp [NotNamed, Obj.pairs, Pair.field])
  exact ⟨text, p', v', ht, h1, h2, h3⟩

/-- The empty tuple inside `n` arrays. -/
def sampleNest : Nat → Value
  | 0 => .tup 0 [] []
  | n + 1 => .arr 0 (sampleNest n).getType [sampleNest n]

theorem sampleNest_ok : ∀ n, WellTyped (sampleNest n) ∧ NamesOk (sampleNest n) ∧ (sampleNest n).nest = n + 1
  | 0 => ⟨.tup (by simp) rfl, .tup (by simp), rfl⟩
  | n + 1 => by
    obtain ⟨h1, h2, h3⟩ := sampleNest_ok n
    refine ⟨.arr (by simpa using h1) ⟨?_, ?_⟩, .arr (by simpa using h2), by simp [sampleNest, Value.nest, Value.nestL, h3]⟩
    · intro t ht
      simp only [List.map_cons, List.map_nil, List.mem_cons, List.not_mem_nil, or_false] at ht
      subst ht; exact .refl _
    · intro d hd; exact hd _ (by simp)

attribute [local irreducible] ReadsAt Rejected in
/-- C69: 62 levels fit inside one object, 63 do not. -/
example : (∃ text p' v', (sampleNest 61).display = some text ∧
      ReadsAt noFiles startRt [(c!"x: 1", c!"a")] (c!"b: 2" ++ c!"\n" ++ c!"y" ++ c!":" ++ text) p' ∧
      p'.pairs = [.mk c!"b" (.int 2), .mk c!"y" v'] ∧ v'.eq (sampleNest 61) = true) ∧
    ∃ text, (sampleNest 62).display = some text ∧
      Rejected noFiles startRt [(c!"x: 1", c!"a")] c!"b: 2" (.mk 0 [.mk c!"b" (.int 2)] none) text .maxDepth := by
  constructor
  · obtain ⟨text, ht⟩ := c20_display_total.1 (sampleNest 61)
    obtain ⟨h1, h2, h3⟩ := sampleNest_ok 61
    obtain ⟨p', v', h4, h5, -, -, h6, -⟩ := c69_paste noFiles startRt _ _ _ sampleInside (sampleNest 61) h1 h2
      (by rw [h3]; decide) text ht c!"y" (sampleFieldName 'y' (by decide)) (by simp [NotNamed, Obj.pairs, Pair.field])
    exact ⟨text, p', v', ht, h4, h5, h6⟩
  · obtain ⟨text, ht⟩ := c20_display_total.1 (sampleNest 62)
    obtain ⟨h1, h2, h3⟩ := sampleNest_ok 62
    exact ⟨text, ht, c69_too_deep noFiles startRt _ _ _ sampleInside _ h1 h2 (by rw [h3]; decide) text ht⟩

end

end Over
