import Verif.Spec.Types
import Verif.Model.Value

/-! # Lemmas about types -/

namespace Over

/-- Induction over types with the element-wise hypothesis for tuples. -/
theorem Ty.ind {m : Ty → Prop} (any : m .any) (null : m .null) (bool : m .bool) (int : m .int)
    (frac : m .frac) (str : m .str) (obj : m .obj) (arr : ∀ t, m t → m (.arr t))
    (tup : ∀ ts : List Ty, (∀ t ∈ ts, m t) → m (.tup ts)) : ∀ t, m t := by
  intro t
  refine Ty.rec (motive_1 := m) (motive_2 := fun ts => ∀ t ∈ ts, m t) any null bool int frac str arr
    tup obj ?_ ?_ t
  · simp
  · intro t ts h1 h2 x hx
    rcases List.mem_cons.1 hx with rfl | hx
    · exact h1
    · exact h2 _ hx

/-! ## `is` -/

theorem Ty.isZip_iff : ∀ (l1 l2 : List Ty), l1.length = l2.length →
    (∀ t ∈ l1, ∀ u, t.is u = true ↔ t = u) → (Ty.isZip l1 l2 = true ↔ l1 = l2)
  | [], [], _, _ => by simp [Ty.isZip]
  | t :: l1, [], h, _ => by simp at h
  | [], u :: l2, h, _ => by simp at h
  | t :: l1, u :: l2, h, ih => by
    have h1 := ih t (by simp) u
    have h2 := Ty.isZip_iff l1 l2 (by simpa using h) (fun x hx => ih x (by simp [hx]))
    simp [Ty.isZip, h1, h2]

theorem Ty.is_iff (a : Ty) : ∀ b, a.is b = true ↔ a = b := by
  induction a using Ty.ind with
  | arr t ih => intro b; cases b <;> simp [Ty.is, ih]
  | tup ts ih =>
    intro b
    cases b with
    | tup us =>
      by_cases h : ts.length = us.length
      · simp [Ty.is, h, Ty.isZip_iff ts us h ih]
      · simp only [Ty.is, bne_iff_ne, ne_eq, h, not_false_eq_true, if_true, Ty.tup.injEq]
        constructor
        · intro h; cases h
        · intro h'; exact absurd (congrArg _ h') h
    | _ => simp [Ty.is]
  | _ => intro b; cases b <;> simp [Ty.is]

/-! ## `has_any` -/

theorem Ty.hasAnyL_iff (l : List Ty) : Ty.hasAnyL l = true ↔ ∃ t ∈ l, t.hasAny = true := by
  induction l with
  | nil => simp [Ty.hasAnyL]
  | cons t l ih => simp [Ty.hasAnyL, ih]

theorem Ty.hasAny_iff (t : Ty) : t.hasAny = true ↔ MentionsAny t := by
  induction t using Ty.ind with
  | any => simp [Ty.hasAny, MentionsAny.any]
  | arr t ih =>
    simp only [Ty.hasAny, ih]
    exact ⟨.arr, fun h => by cases h; assumption⟩
  | tup ts ih =>
    simp only [Ty.hasAny, Ty.hasAnyL_iff]
    constructor
    · rintro ⟨t, ht, h⟩; exact .tup ht ((ih t ht).1 h)
    · intro h; cases h with | tup ht h => exact ⟨_, ht, (ih _ ht).2 h⟩
  | _ => simp only [Ty.hasAny]; constructor <;> intro h <;> cases h

/-! ## `Refines` is a partial order -/

theorem Refines.refl (t : Ty) : Refines t t := by
  induction t using Ty.ind with
  | arr t ih => exact .arr ih
  | tup ts ih =>
    refine .tup ?_
    rw [List.forall₂_same]; exact ih
  | _ => constructor

theorem forall₂_trans_of {l1 : List Ty} : ∀ {l2 l3 : List Ty},
    (∀ c ∈ l3, ∀ a b, Refines a b → Refines b c → Refines a c) →
    List.Forall₂ Refines l1 l2 → List.Forall₂ Refines l2 l3 → List.Forall₂ Refines l1 l3 := by
  induction l1 with
  | nil => intro l2 l3 _ h1 h2; cases h1; cases h2; exact .nil
  | cons a l1 ih =>
    intro l2 l3 h h1 h2
    cases h1 with | cons hab h1 =>
    cases h2 with | cons hbc h2 =>
    exact .cons (h _ (by simp) _ _ hab hbc) (ih (fun c hc => h c (by simp [hc])) h1 h2)

theorem Refines.trans' (c : Ty) : ∀ a b, Refines a b → Refines b c → Refines a c := by
  induction c using Ty.ind with
  | any => intros; exact .any _
  | arr t ih =>
    intro a b h1 h2
    cases h2 with | arr h2 => cases h1 with | arr h1 => exact .arr (ih _ _ h1 h2)
  | tup ts ih =>
    intro a b h1 h2
    cases h2 with | tup h2 => cases h1 with | tup h1 => exact .tup (forall₂_trans_of ih h1 h2)
  | _ => intro a b h1 h2; cases h2; exact h1

theorem Refines.trans {a b c : Ty} (h1 : Refines a b) (h2 : Refines b c) : Refines a c :=
  Refines.trans' c a b h1 h2

theorem forall₂_antisymm_of {l1 : List Ty} : ∀ {l2 : List Ty},
    (∀ a ∈ l1, ∀ b, Refines a b → Refines b a → a = b) →
    List.Forall₂ Refines l1 l2 → List.Forall₂ Refines l2 l1 → l1 = l2 := by
  induction l1 with
  | nil => intro l2 _ h1 h2; cases h1; rfl
  | cons a l1 ih =>
    intro l2 h h1 h2
    cases h1 with | cons hab h1 =>
    cases h2 with | cons hba h2 =>
    rw [h _ (by simp) _ hab hba, ih (fun c hc => h c (by simp [hc])) h1 h2]

theorem Refines.antisymm' (a : Ty) : ∀ b, Refines a b → Refines b a → a = b := by
  induction a using Ty.ind with
  | any => intro b h1 h2; cases h1; rfl
  | arr t ih =>
    intro b h1 h2
    cases h2 with | arr h2 => cases h1 with | arr h1 => rw [ih _ h1 h2]
  | tup ts ih =>
    intro b h1 h2
    cases h2 with | tup h2 => cases h1 with | tup h1 => rw [forall₂_antisymm_of ih h1 h2]
  | _ => intro b h1 h2; cases h2; rfl

theorem Refines.antisymm {a b : Ty} (h1 : Refines a b) (h2 : Refines b a) : a = b :=
  Refines.antisymm' a b h1 h2

theorem LeastCommonRefinement.unique {l l' : List Ty} {c d : Ty} (hl : ∀ t, t ∈ l ↔ t ∈ l')
    (hc : LeastCommonRefinement c l) (hd : LeastCommonRefinement d l') : c = d :=
  Refines.antisymm (hd.2 c (fun t ht => hc.1 t ((hl t).2 ht)))
    (hc.2 d (fun t ht => hd.1 t ((hl t).1 ht)))

/-- A refinement of a type without `Any` is that type. -/
theorem Refines.eq_of_noAny (t : Ty) : ∀ s, t.hasAny = false → Refines s t → s = t := by
  induction t using Ty.ind with
  | any => simp [Ty.hasAny]
  | arr t ih => intro s h hr; cases hr with | arr hr => rw [ih _ (by simpa [Ty.hasAny] using h) hr]
  | tup ts ih =>
    intro s h hr
    cases hr with | tup hr =>
    have h' : ∀ t ∈ ts, t.hasAny = false := by
      intro t ht
      by_contra hc
      have : Ty.hasAnyL ts = true := (Ty.hasAnyL_iff ts).2 ⟨t, ht, by simpa using hc⟩
      simp [Ty.hasAny, this] at h
    rename_i ss
    have : ss = ts := by
      clear h
      induction hr with
      | nil => rfl
      | cons h1 _ ih2 =>
        rw [ih _ (by simp) _ (h' _ (by simp)) h1,
          ih2 (fun t ht => ih t (by simp [ht])) (fun t ht => h' t (by simp [ht]))]
    rw [this]
  | _ => intro s h hr; cases hr; rfl

/-! ## `most_specific` -/

/-- What a result of `most_specific` means. -/
def MsSpec (a b : Ty) : Option (Ty × Bool) → Prop
  | none => ∀ c, ¬ (Refines c a ∧ Refines c b)
  | some (c, f) => Refines c a ∧ Refines c b ∧ (∀ d, Refines d a → Refines d b → Refines d c) ∧
      f = c.hasAny

theorem Ty.mostSpecificZip_spec : ∀ (l1 l2 : List Ty), l1.length = l2.length →
    (∀ a ∈ l1, ∀ b, MsSpec a b (Ty.mostSpecific a b)) →
    match Ty.mostSpecificZip l1 l2 with
    | none => ∀ l, ¬ (List.Forall₂ Refines l l1 ∧ List.Forall₂ Refines l l2)
    | some (l, f) => List.Forall₂ Refines l l1 ∧ List.Forall₂ Refines l l2 ∧
      (∀ d, List.Forall₂ Refines d l1 → List.Forall₂ Refines d l2 → List.Forall₂ Refines d l) ∧
      f = Ty.hasAnyL l
  | [], [], _, _ => by
    simp only [Ty.mostSpecificZip, Ty.hasAnyL]
    exact ⟨.nil, .nil, fun d h _ => h, trivial⟩
  | t :: l1, [], h, _ => by simp at h
  | [], u :: l2, h, _ => by simp at h
  | a :: l1, b :: l2, h, ih => by
    have h1 := ih a (by simp) b
    have h2 := Ty.mostSpecificZip_spec l1 l2 (by simpa using h) (fun x hx => ih x (by simp [hx]))
    unfold Ty.mostSpecificZip
    revert h1 h2
    cases Ty.mostSpecific a b with
    | none =>
      simp only [MsSpec]
      intro h1 _ l hl
      cases hl.1 with | cons x y =>
      cases hl.2 with | cons x' y' => exact h1 _ ⟨x, x'⟩
    | some cf =>
      obtain ⟨c, f⟩ := cf
      cases Ty.mostSpecificZip l1 l2 with
      | none =>
        simp only [MsSpec]
        intro _ h2 l hl
        cases hl.1 with | cons x y =>
        cases hl.2 with | cons x' y' => exact h2 _ ⟨y, y'⟩
      | some lf =>
        obtain ⟨l, f'⟩ := lf
        simp only [MsSpec]
        rintro ⟨a1, a2, a3, a4⟩ ⟨b1, b2, b3, b4⟩
        refine ⟨.cons a1 b1, .cons a2 b2, ?_, ?_⟩
        · intro d hd1 hd2
          cases hd1 with | cons x y =>
          cases hd2 with | cons x' y' => exact .cons (a3 _ x x') (b3 _ y y')
        · simp [Ty.hasAnyL, a4, b4]

theorem Ty.mostSpecific_any_right (a : Ty) : Ty.mostSpecific a .any = some (a, a.hasAny) := by
  cases a <;> simp [Ty.mostSpecific]

theorem Ty.eq_any_right (a : Ty) : Ty.eq a .any = true := by cases a <;> simp [Ty.eq]
theorem Ty.eq_any_left (a : Ty) : Ty.eq .any a = true := by cases a <;> simp [Ty.eq]

theorem Ty.mostSpecific_spec (a : Ty) : ∀ b, MsSpec a b (Ty.mostSpecific a b) := by
  induction a using Ty.ind with
  | any =>
    intro b
    have : Ty.mostSpecific .any b = some (b, b.hasAny) := by
      cases b <;> simp [Ty.mostSpecific]
    rw [this]
    exact ⟨.any _, .refl _, fun d _ h => h, rfl⟩
  | arr t ih =>
    intro b
    cases b with
    | any =>
      simp only [Ty.mostSpecific, MsSpec]
      exact ⟨.refl _, .any _, fun d h _ => h, trivial⟩
    | arr u =>
      have h := ih u
      simp only [Ty.mostSpecific]
      cases hm : Ty.mostSpecific t u with
      | none =>
        rw [hm] at h
        simp only [Option.map_none, MsSpec] at h ⊢
        intro c hc
        cases hc.1 with | arr x =>
        cases hc.2 with | arr y => exact h _ ⟨x, y⟩
      | some cf =>
        rw [hm] at h
        obtain ⟨c, f⟩ := cf
        simp only [Option.map_some, MsSpec, Ty.hasAny] at h ⊢
        refine ⟨.arr h.1, .arr h.2.1, ?_, h.2.2.2⟩
        intro d h1 h2
        cases h1 with | arr x => cases h2 with | arr y => exact .arr (h.2.2.1 _ x y)
    | _ =>
      simp only [Ty.mostSpecific, MsSpec]
      rintro c ⟨h1, h2⟩
      cases h1; cases h2
  | tup ts ih =>
    intro b
    cases b with
    | any =>
      simp only [Ty.mostSpecific, MsSpec]
      exact ⟨.refl _, .any _, fun d h _ => h, trivial⟩
    | tup us =>
      simp only [Ty.mostSpecific]
      by_cases hl : ts.length = us.length
      · have h := Ty.mostSpecificZip_spec ts us hl ih
        simp only [hl, beq_self_eq_true, if_true]
        cases hm : Ty.mostSpecificZip ts us with
        | none =>
          rw [hm] at h
          simp only [Option.map_none, MsSpec] at h ⊢
          intro c hc
          cases hc.1 with | tup x =>
          cases hc.2 with | tup y => exact h _ ⟨x, y⟩
        | some cf =>
          rw [hm] at h
          obtain ⟨c, f⟩ := cf
          simp only [Option.map_some, MsSpec, Ty.hasAny] at h ⊢
          refine ⟨.tup h.1, .tup h.2.1, ?_, h.2.2.2⟩
          intro d h1 h2
          cases h1 with | tup x => cases h2 with | tup y => exact .tup (h.2.2.1 _ x y)
      · have : (ts.length == us.length) = false := by simpa using hl
        simp only [this, MsSpec]
        rintro c ⟨h1, h2⟩
        cases h1 with | tup x =>
        cases h2 with | tup y => exact hl (x.length_eq.symm.trans y.length_eq)
    | _ =>
      simp only [Ty.mostSpecific, MsSpec]
      rintro c ⟨h1, h2⟩
      cases h1; cases h2
  | _ =>
    intro b
    cases b <;> simp [Ty.mostSpecific, Ty.eq, Ty.is, MsSpec, Ty.hasAny] <;>
      first
      | exact .refl _
      | (refine ⟨.refl _, ?_, ?_⟩ <;> first | exact .any _ | exact .refl _ | (intros; assumption))
      | (intro c h1 h2; cases h1; cases h2)

/-! ## `==` -/

theorem Ty.eqL_iff_aux : ∀ (l1 l2 : List Ty),
    (∀ a ∈ l1, ∀ b, a.eq b = true ↔ ∃ c, Refines c a ∧ Refines c b) →
    (Ty.eqL l1 l2 = true ↔ ∃ l, List.Forall₂ Refines l l1 ∧ List.Forall₂ Refines l l2)
  | [], [], _ => by simp [Ty.eqL]
  | t :: l1, [], _ => by
    simp only [Ty.eqL, Bool.false_eq_true, false_iff, not_exists, not_and]
    intro l h1 h2; cases h2; cases h1
  | [], u :: l2, _ => by
    simp only [Ty.eqL, Bool.false_eq_true, false_iff, not_exists, not_and]
    intro l h1 h2; cases h1; cases h2
  | a :: l1, b :: l2, ih => by
    have h1 := ih a (by simp) b
    have h2 := Ty.eqL_iff_aux l1 l2 (fun x hx => ih x (by simp [hx]))
    simp only [Ty.eqL, Bool.and_eq_true, h1, h2]
    constructor
    · rintro ⟨⟨c, x, y⟩, ⟨l, x', y'⟩⟩; exact ⟨c :: l, .cons x x', .cons y y'⟩
    · rintro ⟨l, x, y⟩
      cases x with | cons x x' => cases y with | cons y y' => exact ⟨⟨_, x, y⟩, ⟨_, x', y'⟩⟩

theorem Ty.eq_iff_common (a : Ty) : ∀ b, a.eq b = true ↔ ∃ c, Refines c a ∧ Refines c b := by
  induction a using Ty.ind with
  | any => intro b; simp only [Ty.eq_any_left, true_iff]; exact ⟨b, .any _, .refl _⟩
  | arr t ih =>
    intro b
    cases b with
    | any => simp only [Ty.eq_any_right, true_iff]; exact ⟨_, .refl _, .any _⟩
    | arr u =>
      simp only [Ty.eq, ih]
      constructor
      · rintro ⟨c, h1, h2⟩; exact ⟨.arr c, .arr h1, .arr h2⟩
      · rintro ⟨c, h1, h2⟩; cases h1 with | arr h1 => cases h2 with | arr h2 => exact ⟨_, h1, h2⟩
    | _ =>
      simp only [Ty.eq, Bool.false_eq_true, false_iff, not_exists, not_and]
      intro c h1 h2; cases h1; cases h2
  | tup ts ih =>
    intro b
    cases b with
    | any => simp only [Ty.eq_any_right, true_iff]; exact ⟨_, .refl _, .any _⟩
    | tup us =>
      simp only [Ty.eq, Ty.eqL_iff_aux ts us ih]
      constructor
      · rintro ⟨c, h1, h2⟩; exact ⟨.tup c, .tup h1, .tup h2⟩
      · rintro ⟨c, h1, h2⟩; cases h1 with | tup h1 => cases h2 with | tup h2 => exact ⟨_, h1, h2⟩
    | _ =>
      simp only [Ty.eq, Bool.false_eq_true, false_iff, not_exists, not_and]
      intro c h1 h2; cases h1; cases h2
  | _ =>
    intro b
    cases b <;> simp [Ty.eq, Ty.is] <;>
      first
      | exact ⟨_, .refl _⟩
      | exact ⟨_, .refl _, .refl _⟩
      | exact ⟨_, .refl _, .any _⟩
      | (intro c h1 h2; cases h1; cases h2)

theorem Ty.eqL_iff (l1 l2 : List Ty) :
    Ty.eqL l1 l2 = true ↔ List.Forall₂ (fun a b => Ty.eq a b = true) l1 l2 := by
  induction l1 generalizing l2 with
  | nil => cases l2 <;> simp [Ty.eqL]
  | cons a l1 ih => cases l2 <;> simp [Ty.eqL, ih]

theorem Ty.eq_refl (a : Ty) : a.eq a = true := (Ty.eq_iff_common a a).2 ⟨a, .refl _, .refl _⟩

theorem Ty.eq_symm {a b : Ty} (h : a.eq b = true) : b.eq a = true := by
  obtain ⟨c, h1, h2⟩ := (Ty.eq_iff_common a b).1 h
  exact (Ty.eq_iff_common b a).2 ⟨c, h2, h1⟩

theorem Ty.mostSpecific_isSome_iff (a b : Ty) :
    (Ty.mostSpecific a b).isSome = true ↔ a.eq b = true := by
  have h := Ty.mostSpecific_spec a b
  rw [Ty.eq_iff_common]
  cases hm : Ty.mostSpecific a b with
  | none =>
    rw [hm] at h
    simp only [Option.isSome_none, Bool.false_eq_true, false_iff, not_exists]
    exact h
  | some cf =>
    rw [hm] at h
    simp only [Option.isSome_some, true_iff]
    exact ⟨cf.1, h.1, h.2.1⟩

theorem Ty.eq_iff_exists_ms (a b : Ty) : a.eq b = true ↔ ∃ c f, Ty.mostSpecific a b = some (c, f) := by
  rw [← Ty.mostSpecific_isSome_iff, Option.isSome_iff_exists]
  simp

theorem Ty.compat_joinL : ∀ (lx la lb lc : List Ty) (f : Bool),
    (∀ x ∈ lx, ∀ a b c f, Ty.mostSpecific a b = some (c, f) → x.eq a = true → x.eq b = true →
      x.eq c = true) →
    Ty.mostSpecificZip la lb = some (lc, f) → la.length = lb.length →
    Ty.eqL lx la = true → Ty.eqL lx lb = true → Ty.eqL lx lc = true
  | [], [], [], lc, f, _, hm, _, _, _ => by
    simp only [Ty.mostSpecificZip, Option.some.injEq, Prod.mk.injEq] at hm; rw [← hm.1]; rfl
  | [], _ :: _, _, _, _, _, _, _, h1, _ => by simp [Ty.eqL] at h1
  | [], [], _ :: _, _, _, _, _, hl, _, _ => by simp at hl
  | _ :: _, [], _, _, _, _, _, _, h1, _ => by simp [Ty.eqL] at h1
  | _ :: _, _ :: _, [], _, _, _, _, hl, _, _ => by simp at hl
  | x :: lx, a :: la, b :: lb, lc, f, ih, hm, hl, h1, h2 => by
    simp only [Ty.eqL, Bool.and_eq_true] at h1 h2
    unfold Ty.mostSpecificZip at hm
    cases hab : Ty.mostSpecific a b with
    | none => simp [hab] at hm
    | some cf =>
      obtain ⟨c, g⟩ := cf
      cases hz : Ty.mostSpecificZip la lb with
      | none => simp [hab, hz] at hm
      | some lf =>
        obtain ⟨l, g'⟩ := lf
        simp [hab, hz] at hm
        rw [← hm.1]
        simp only [Ty.eqL, Bool.and_eq_true]
        exact ⟨ih x (by simp) a b c g hab h1.1 h2.1,
          Ty.compat_joinL lx la lb l g' (fun y hy => ih y (by simp [hy])) hz (by simpa using hl)
            h1.2 h2.2⟩

/-- Compatibility with both arguments gives compatibility with the least common refinement. -/
theorem Ty.compat_join (x : Ty) : ∀ a b c f, Ty.mostSpecific a b = some (c, f) →
    x.eq a = true → x.eq b = true → x.eq c = true := by
  induction x using Ty.ind with
  | any => intros; exact Ty.eq_any_left _
  | arr t ih =>
    intro a b c f hm h1 h2
    cases a <;> simp [Ty.eq] at h1 <;> cases b <;> simp [Ty.eq] at h2 <;>
      simp [Ty.mostSpecific] at hm
    · rw [← hm.1]; simp [Ty.eq]
    · rw [← hm.1]; simpa [Ty.eq] using h2
    · rw [← hm.1]; simpa [Ty.eq] using h1
    · obtain ⟨c', hm, rfl⟩ := hm
      simp only [Ty.eq]
      exact ih _ _ _ _ hm h1 h2
  | tup ts ih =>
    intro a b c f hm h1 h2
    cases a <;> simp [Ty.eq] at h1 <;> cases b <;> simp [Ty.eq] at h2 <;>
      simp [Ty.mostSpecific] at hm
    · rw [← hm.1]; simp [Ty.eq]
    · rw [← hm.1]; simpa [Ty.eq] using h2
    · rw [← hm.1]; simpa [Ty.eq] using h1
    · obtain ⟨hl, c', hm, rfl⟩ := hm
      simp only [Ty.eq]
      exact Ty.compat_joinL _ _ _ _ _ ih hm hl h1 h2
  | _ =>
    intro a b c f hm h1 h2
    cases a <;> simp [Ty.eq, Ty.is] at h1 <;> cases b <;> simp [Ty.eq, Ty.is] at h2 <;>
      simp [Ty.mostSpecific, Ty.eq, Ty.is] at hm <;> rw [← hm.1] <;> simp [Ty.eq, Ty.is]

/-- The step shared by all array type checks computes the least common refinement. -/
theorem arrTypeStep_eq (t : Ty) (f : Bool) (u : Ty) (hf : f = t.hasAny) :
    arrTypeStep t f u = Ty.mostSpecific t u := by
  unfold arrTypeStep
  split
  · rfl
  · rename_i hfalse
    have hna : t.hasAny = false := by rw [← hf]; simpa using hfalse
    have hs := Ty.mostSpecific_spec t u
    have hiff := Ty.mostSpecific_isSome_iff t u
    split
    · rename_i hne
      cases hm : Ty.mostSpecific t u with
      | none => rfl
      | some x => rw [hm] at hiff; simp at hiff; simp [hiff] at hne
    · rename_i hne
      simp only [Bool.not_eq_true', Bool.not_eq_false] at hne
      cases hm : Ty.mostSpecific t u with
      | none => rw [hm] at hiff; simp [hne] at hiff
      | some x =>
        obtain ⟨c, g⟩ := x
        rw [hm] at hs
        have := Refines.eq_of_noAny t c hna hs.1
        subst this
        rw [hf, hs.2.2.2]

theorem mostSpecific_flag {a b c : Ty} {f : Bool} (h : Ty.mostSpecific a b = some (c, f)) :
    f = c.hasAny := by
  have := Ty.mostSpecific_spec a b
  rw [h] at this
  exact this.2.2.2

end Over
