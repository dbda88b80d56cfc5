import Verif.Lemmas.TidyLines
import Verif.Lemmas.Histories
import Verif.Props.Api
import Verif.Spec.Sample

/-!
# C82: the lines of written text
-/

namespace Over

/-- C82: `write_to_string` prints exactly the lines of the object, each ended by a newline. -/
theorem c82_written_lines (o : Obj) : o.writeToString = some (unlines o.inner) := by
  rw [Obj.writeToString, (format_lines.2 o).2]
  simp [endAt, unlines, indent]

theorem joinAt_zero (ls : List Str) : joinAt 0 ls = List.intercalate c!"\n" ls := by
  match ls with
  | [] => rfl
  | [l] => simp [joinAt, List.intercalate]
  | l :: l' :: ls =>
    have := joinAt_zero (l' :: ls)
    simp only [joinAt, indent, List.replicate_zero, List.append_nil, this]
    simp [List.intercalate]

/-- C82: `Display` of a value prints its lines with newlines between them. -/
theorem c82_display_lines (v : Value) : v.display = some (List.intercalate c!"\n" v.lines) := by
  rw [← joinAt_zero]; exact (format_lines.1 v).2 0

/-- C82: … and so does `Display` of an array, a tuple and an object. -/
theorem c82_display_containers :
    (∀ a : Arr, a.display = some (List.intercalate c!"\n" a.toValue.lines)) ∧
    (∀ t : Tup, t.display = some (List.intercalate c!"\n" t.toValue.lines)) ∧
    (∀ o : Obj, o.display = some (List.intercalate c!"\n" o.lines)) :=
  ⟨fun a => c82_display_lines _, fun t => c82_display_lines _, fun o => by
    rw [← joinAt_zero]; exact (format_lines.2 o).1.2 0⟩

/-- C82: the text of an object is the text of its parent and first fields followed by the text of the
other fields: no field's text depends on the others. -/
theorem c82_fields_apart (i j k : Nat) (ps qs : List Pair) (par : Option Obj) (a b : Str)
    (ha : (Obj.mk j ps par).writeToString = some a) (hb : (Obj.mk k qs none).writeToString = some b) :
    (Obj.mk i (ps ++ qs) par).writeToString = some (a ++ b) := by
  rw [c82_written_lines] at ha hb ⊢
  cases ha; cases hb
  have : Pair.linesL (ps ++ qs) = Pair.linesL ps ++ Pair.linesL qs := by
    induction ps with
    | nil => rfl
    | cons p ps ih => obtain ⟨f, v⟩ := p; simp only [List.cons_append, Pair.linesL, ih, List.append_assoc]
  simp only [Obj.inner, Obj.linesP, List.nil_append, this, unlines, List.flatMap_append, List.append_assoc]

/-- C82: changing the value of one field changes that field's lines and nothing before or after them. -/
theorem c82_one_field (i : Nat) (ps qs : List Pair) (par : Option Obj) (f : Str) :
    ∃ a c, ∀ v, (Obj.mk i (ps ++ .mk f v :: qs) par).writeToString =
      some (a ++ unlines (before (f ++ c!": ") v.lines) ++ c) := by
  refine ⟨unlines (Obj.mk i ps par).inner, unlines (Obj.mk i qs none).inner, fun v => ?_⟩
  have h1 := c82_fields_apart i i i [.mk f v] qs none _ _ (c82_written_lines _) (c82_written_lines _)
  have h2 := c82_fields_apart i i i ps ([.mk f v] ++ qs) par _ _ (c82_written_lines _) h1
  simpa [Obj.inner, Obj.linesP, Pair.linesL, unlines] using h2

/-- C82: an object inside another is printed as it would be on its own, four spaces to the right and in
braces. -/
theorem c82_nested (i : Nat) (f : Str) (o : Obj) (h : o.pairs ≠ [] ∨ o.parent ≠ none) :
    (Obj.mk i [.mk f (.obj o)] none).writeToString =
      some (f ++ c!": {\n" ++ unlines (shift o.inner) ++ c!"}\n") := by
  obtain ⟨j, ps, par⟩ := o
  have h' : ¬ (ps = [] ∧ par = none) := by
    rintro ⟨rfl, rfl⟩
    rcases h with h | h <;> exact h rfl
  rw [c82_written_lines]
  simp only [Obj.inner, Obj.linesP, Pair.linesL, Value.lines, Obj.lines, if_neg h', unlines]
  simp [before]

section
variable [Unicode]

/-- C82: in an object all of whose field names `from_pairs` accepts, every line of the text is a multiple
of four spaces followed by something that neither begins nor ends in a space; there is no blank line, no
trailing space, no tab and no carriage return. -/
theorem c82_tidy (o : Obj) (h : NamesAccepted (.obj o)) :
    ∃ ls, o.writeToString = some (unlines ls) ∧ ∀ l ∈ ls, TidyLine l :=
  ⟨_, c82_written_lines o, (tidy_lines.2 o h).2⟩

/-- C82: so it is with whatever a program has got by parsing and building. -/
theorem c82_tidy_history (s₀ s : Session) (h₀ : s₀.pool = []) (hf : s₀.shared.Fine) (h : Lives s₀ s) (o : Obj)
    (ho : Value.obj o ∈ s.pool) : ∃ ls, o.writeToString = some (unlines ls) ∧ ∀ l ∈ ls, TidyLine l := by
  obtain ⟨r, -, hp⟩ := h.keeps (sessionOk_start h₀ hf)
  exact c82_tidy o (hp _ ho).names

/-- C82: … and with the `Display` of any value of such a program. -/
theorem c82_tidy_display (s₀ s : Session) (h₀ : s₀.pool = []) (hf : s₀.shared.Fine) (h : Lives s₀ s) (v : Value)
    (hv : v ∈ s.pool) : ∃ ls, v.display = some (List.intercalate c!"\n" ls) ∧ ls ≠ [] ∧ ∀ l ∈ ls, TidyLine l := by
  obtain ⟨r, -, hp⟩ := h.keeps (sessionOk_start h₀ hf)
  exact ⟨_, c82_display_lines v, (format_lines.1 v).1, tidy_lines.1 v (hp _ hv).names⟩

end

/-! ## A concrete object -/

section
attribute [local instance] sampleUnicode

/-- An object with a parent, a nested object, a one-element array and a two-element one. -/
def linesSample : Obj :=
  .mk 9 [.mk c!"a" (.arr 1 .int [.int (-5)]),
    .mk c!"b" (.obj (.mk 2 [.mk c!"c" (.arr 3 .str [.str c!"x\ny", .str c!"$"]), .mk c!"d" (.tup 4 [] [])] none)),
    .mk c!"e" (.tup 5 [.obj] [.obj (.mk 6 [.mk c!"f" (.frac (1/2))] none)])]
    (some (.mk 7 [.mk c!"p" .null] none))

example : linesSample.inner =
    [c!"^: {",
     c!"    p: null",
     c!"}",
     c!"a: [-5]",
     c!"b: {",
     c!"    c: [",
     c!"        \"x\\ny\"",
     c!"        \"\\$\"",
     c!"    ]",
     c!"    d: ()",
     c!"}",
     c!"e: ({",
     c!"    f: 1/2",
     c!"})"] := by decide +kernel

example : ∃ ls, linesSample.writeToString = some (unlines ls) ∧ ∀ l ∈ ls, TidyLine l := by
  refine c82_tidy _ ?_
  intro o ho p hp
  rw [← c13_is_valid_field_iff]
  revert p
  simp only [linesSample, Value.containers, Obj.containers, Value.containersL, Pair.containersL, Obj.containersP] at ho
  simp only [List.mem_cons, List.mem_append, List.not_mem_nil, or_false, false_or, Value.obj.injEq, reduceCtorEq, List.append_nil] at ho
  rcases ho with rfl | (rfl | rfl) | rfl <;> decide +kernel
end

end Over
