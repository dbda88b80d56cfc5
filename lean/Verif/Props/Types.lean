import Verif.Lemmas.Types

/-!
# C01–C04: the type algebra of src/types.rs
-/

namespace Over

/-! ## C01 -/

/-- C01: two types are `==` exactly when some type refines both. -/
theorem c01_type_eq_iff_common_refinement (a b : Ty) :
    a.eq b = true ↔ ∃ c, Refines c a ∧ Refines c b :=
  Ty.eq_iff_common a b

/-- C01: `==` is reflexive. -/
theorem c01_type_eq_refl (a : Ty) : a.eq a = true := Ty.eq_refl a

/-- C01: `==` is symmetric (as a Boolean function). -/
theorem c01_type_eq_symm (a b : Ty) : a.eq b = b.eq a := by
  rw [Bool.eq_iff_iff]; exact ⟨Ty.eq_symm, Ty.eq_symm⟩

/-- C01: `==` is not transitive, although `Eq` is implemented. -/
theorem c01_type_eq_not_transitive :
    ¬ ∀ a b c : Ty, a.eq b = true → b.eq c = true → a.eq c = true := by
  intro h
  have := h .int .any .str (by decide) (by decide)
  simp [Ty.eq, Ty.is] at this

/-- C01: on types without `Any`, `==` is an equivalence (it is identity). -/
theorem c01_type_eq_iff_of_noAny (a b : Ty) (ha : ¬ MentionsAny a) (hb : ¬ MentionsAny b) :
    a.eq b = true ↔ a = b := by
  constructor
  · intro h
    obtain ⟨c, h1, h2⟩ := (Ty.eq_iff_common a b).1 h
    rw [← Ty.hasAny_iff, Bool.not_eq_true] at ha hb
    rw [← Refines.eq_of_noAny a c ha h1, ← Refines.eq_of_noAny b c hb h2]
  · rintro rfl; exact Ty.eq_refl a

/-- A non-trivial instance of C01: `Arr(Any) == Arr(Tup(Int, Any))`, witnessed by a refinement. -/
example : (Ty.arr .any).eq (.arr (.tup [.int, .any])) = true ∧
    Refines (.arr (.tup [.int, .str])) (.arr (.tup [.int, .any])) :=
  ⟨by decide, .arr (.tup (.cons .int (.cons (.any _) .nil)))⟩

/-! ## C02 -/

/-- C02: refinement is a partial order, so "the" least common refinement is unique. -/
theorem c02_refines_partial_order :
    (∀ a, Refines a a) ∧ (∀ a b c, Refines a b → Refines b c → Refines a c) ∧
    (∀ a b, Refines a b → Refines b a → a = b) :=
  ⟨Refines.refl, fun _ _ _ => Refines.trans, fun _ _ => Refines.antisymm⟩

/-- C02: `most_specific` returns exactly the least common refinement, and the flag says whether `Any`
occurs in it. -/
theorem c02_most_specific_some (a b c : Ty) (f : Bool) :
    Ty.mostSpecific a b = some (c, f) ↔
      LeastCommonRefinement c [a, b] ∧ (f = true ↔ MentionsAny c) := by
  have hs := Ty.mostSpecific_spec a b
  constructor
  · intro h
    rw [h] at hs
    refine ⟨⟨?_, ?_⟩, ?_⟩
    · intro t ht
      simp only [List.mem_cons, List.not_mem_nil, or_false] at ht
      rcases ht with rfl | rfl
      · exact hs.1
      · exact hs.2.1
    · intro d hd; exact hs.2.2.1 d (hd a (by simp)) (hd b (by simp))
    · rw [hs.2.2.2]; exact Ty.hasAny_iff c
  · rintro ⟨hl, hf⟩
    have ha := hl.1 a (by simp)
    have hb := hl.1 b (by simp)
    cases hm : Ty.mostSpecific a b with
    | none => rw [hm] at hs; exact absurd ⟨ha, hb⟩ (hs c)
    | some x =>
      obtain ⟨c', f'⟩ := x
      rw [hm] at hs
      have h1 : Refines c c' := hs.2.2.1 c ha hb
      have h2 : Refines c' c := hl.2 c' (by
        intro t ht
        simp only [List.mem_cons, List.not_mem_nil, or_false] at ht
        rcases ht with rfl | rfl
        · exact hs.1
        · exact hs.2.1)
      have : c = c' := Refines.antisymm h1 h2
      subst this
      have hf' : f' = true ↔ MentionsAny c := by rw [hs.2.2.2]; exact Ty.hasAny_iff c
      have : f' = f := by rw [Bool.eq_iff_iff]; exact hf'.trans hf.symm
      rw [this]

/-- C02: `most_specific` fails exactly when the types are not `==`. -/
theorem c02_most_specific_none (a b : Ty) : Ty.mostSpecific a b = none ↔ a.eq b = false := by
  have h := Ty.mostSpecific_isSome_iff a b
  cases hm : Ty.mostSpecific a b <;> simp [hm] at h ⊢ <;> exact h

/-- A non-trivial instance of C02. -/
example : Ty.mostSpecific (.tup [.arr .any, .arr .int]) (.tup [.arr (.arr .any), .any]) =
    some (.tup [.arr (.arr .any), .arr .int], true) := by rfl

/-! ## C03 -/

/-- C03: `most_specific` is commutative. -/
theorem c03_most_specific_comm (a b : Ty) : Ty.mostSpecific a b = Ty.mostSpecific b a := by
  have key : ∀ a b c f, Ty.mostSpecific a b = some (c, f) → Ty.mostSpecific b a = some (c, f) := by
    intro a b c f h
    rw [c02_most_specific_some] at h ⊢
    refine ⟨⟨?_, ?_⟩, h.2⟩
    · intro t ht; exact h.1.1 t (by simp at ht ⊢; tauto)
    · intro d hd; exact h.1.2 d (fun t ht => hd t (by simp at ht ⊢; tauto))
  cases h : Ty.mostSpecific a b with
  | some x => exact (key a b x.1 x.2 h).symm
  | none =>
    cases h' : Ty.mostSpecific b a with
    | none => rfl
    | some x => rw [key b a x.1 x.2 h'] at h; cases h

/-- C03: `most_specific` is idempotent. -/
theorem c03_most_specific_idem (a : Ty) : Ty.mostSpecific a a = some (a, a.hasAny) := by
  rw [c02_most_specific_some]
  exact ⟨⟨by intro t ht; simp at ht; subst ht; exact .refl _, fun d hd => hd a (by simp)⟩,
    Ty.hasAny_iff a⟩

/-- Any bracketing of a collection of types: a binary tree. -/
inductive Grouping
  | leaf (t : Ty)
  | node (l r : Grouping)

/-- The types at the leaves, left to right. -/
def Grouping.leaves : Grouping → List Ty
  | .leaf t => [t]
  | .node l r => l.leaves ++ r.leaves

/-- Evaluating a bracketing with `most_specific`. -/
def Grouping.eval : Grouping → Option Ty
  | .leaf t => some t
  | .node l r => match l.eval, r.eval with
    | some a, some b => (Ty.mostSpecific a b).map (·.1)
    | _, _ => none

/-- C03: evaluating any bracketing gives exactly the least common refinement of its leaves. -/
theorem c03_grouping_eval (g : Grouping) (c : Ty) :
    g.eval = some c ↔ LeastCommonRefinement c g.leaves := by
  have main : ∀ g : Grouping, (∀ c, g.eval = some c → LeastCommonRefinement c g.leaves) ∧
      (g.eval = none → ∀ d, ¬ CommonRefinement d g.leaves) := by
    intro g
    induction g with
    | leaf t =>
      refine ⟨?_, by simp [Grouping.eval]⟩
      intro c h
      simp only [Grouping.eval, Option.some.injEq] at h
      subst h
      exact ⟨by intro u hu; simp [Grouping.leaves] at hu; subst hu; exact .refl _,
        fun d hd => hd t (by simp [Grouping.leaves])⟩
    | node l r ihl ihr =>
      have split : ∀ d, CommonRefinement d (Grouping.node l r).leaves ↔
          CommonRefinement d l.leaves ∧ CommonRefinement d r.leaves := by
        intro d
        simp only [CommonRefinement, Grouping.leaves, List.mem_append]
        exact ⟨fun h => ⟨fun t ht => h t (.inl ht), fun t ht => h t (.inr ht)⟩,
          fun h t ht => ht.elim (h.1 t) (h.2 t)⟩
      cases hl : l.eval with
      | none =>
        simp only [Grouping.eval, hl]
        exact ⟨by simp, fun _ d hd => ihl.2 hl d ((split d).1 hd).1⟩
      | some a =>
        cases hr : r.eval with
        | none =>
          simp only [Grouping.eval, hl, hr]
          exact ⟨by simp, fun _ d hd => ihr.2 hr d ((split d).1 hd).2⟩
        | some b =>
          have La := ihl.1 a hl
          have Lb := ihr.1 b hr
          have hs := Ty.mostSpecific_spec a b
          cases hm : Ty.mostSpecific a b with
          | none =>
            rw [hm] at hs
            simp only [Grouping.eval, hl, hr, hm]
            refine ⟨by simp, fun _ d hd => ?_⟩
            obtain ⟨h1, h2⟩ := (split d).1 hd
            exact hs d ⟨La.2 d h1, Lb.2 d h2⟩
          | some x =>
            rw [hm] at hs
            simp only [Grouping.eval, hl, hr, hm]
            refine ⟨?_, by simp⟩
            intro c hc
            simp only [Option.map_some, Option.some.injEq] at hc
            subst hc
            refine ⟨(split _).2 ⟨fun t ht => hs.1.trans (La.1 t ht),
              fun t ht => hs.2.1.trans (Lb.1 t ht)⟩, ?_⟩
            intro d hd
            obtain ⟨h1, h2⟩ := (split d).1 hd
            exact hs.2.2.1 d (La.2 d h1) (Lb.2 d h2)
  constructor
  · exact (main g).1 c
  · intro h
    cases he : g.eval with
    | none => exact absurd h.1 ((main g).2 he c)
    | some d => rw [LeastCommonRefinement.unique (fun _ => Iff.rfl) ((main g).1 d he) h]

/-- C03: two bracketings over the same set of types (in any order, with any repetitions) give the same
type or both fail. -/
theorem c03_order_grouping_repetition_irrelevant (g g' : Grouping)
    (h : ∀ t, t ∈ g.leaves ↔ t ∈ g'.leaves) : g.eval = g'.eval := by
  have key : ∀ g g' : Grouping, (∀ t, t ∈ g.leaves ↔ t ∈ g'.leaves) → ∀ c, g.eval = some c →
      g'.eval = some c := by
    intro g g' h c hc
    rw [c03_grouping_eval] at hc ⊢
    exact ⟨fun t ht => hc.1 t ((h t).2 ht), fun d hd => hc.2 d (fun t ht => hd t ((h t).1 ht))⟩
  cases hg : g.eval with
  | some c => exact (key g g' h c hg).symm
  | none =>
    cases hg' : g'.eval with
    | none => rfl
    | some c => rw [key g' g (fun t => (h t).symm) c hg'] at hg; cases hg

/-- C03, associativity spelled out. -/
theorem c03_most_specific_assoc (a b c : Ty) :
    ((Ty.mostSpecific a b).bind fun x => (Ty.mostSpecific x.1 c).map (·.1)) =
    ((Ty.mostSpecific b c).bind fun x => (Ty.mostSpecific a x.1).map (·.1)) := by
  have h := c03_order_grouping_repetition_irrelevant (.node (.node (.leaf a) (.leaf b)) (.leaf c))
    (.node (.leaf a) (.node (.leaf b) (.leaf c))) (by intro t; simp [Grouping.leaves])
  simp only [Grouping.eval] at h
  cases h1 : Ty.mostSpecific a b <;> cases h2 : Ty.mostSpecific b c <;> simp [h1, h2] at h ⊢ <;> exact h

/-- A non-trivial instance of C03: two different bracketings of the same types. -/
example : (Grouping.node (.node (.leaf (.arr .any)) (.leaf (.arr .int))) (.leaf .any)).eval =
    (Grouping.node (.leaf .any) (.node (.leaf (.arr .int)) (.node (.leaf (.arr .any)) (.leaf .any)))).eval
    ∧ (Grouping.node (.node (.leaf (.arr .any)) (.leaf (.arr .int))) (.leaf .any)).eval
      = some (.arr .int) := ⟨by rfl, by rfl⟩

/-! ## C04 -/

/-- C04: `is` is identity of types. -/
theorem c04_is_iff (a b : Ty) : a.is b = true ↔ a = b := Ty.is_iff a b

/-- C04: `is` implies `==`. -/
theorem c04_is_implies_eq (a b : Ty) (h : a.is b = true) : a.eq b = true := by
  rw [c04_is_iff] at h; subst h; exact Ty.eq_refl a

/-- C04: `==` implies `is` when `Any` occurs in neither type. -/
theorem c04_eq_implies_is (a b : Ty) (ha : ¬ MentionsAny a) (hb : ¬ MentionsAny b)
    (h : a.eq b = true) : a.is b = true := by
  rw [c04_is_iff]; exact (c01_type_eq_iff_of_noAny a b ha hb).1 h

/-- C04: `has_any` says whether `Any` occurs. -/
theorem c04_has_any_iff (a : Ty) : a.hasAny = true ↔ MentionsAny a := Ty.hasAny_iff a

/-- The hypotheses of C04 are met by a nested type. -/
example : ¬ MentionsAny (.arr (.tup [.int, .arr .str])) := by
  rw [← c04_has_any_iff]; decide

end Over
