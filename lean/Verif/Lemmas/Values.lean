import Verif.Spec.Values
import Verif.Lemmas.Types

/-! # Lemmas about values -/

namespace Over

/-- Simultaneous induction over values and objects. -/
theorem Value.ind {mv : Value → Prop} {mo : Obj → Prop} (null : mv .null) (bool : ∀ b, mv (.bool b))
    (int : ∀ i, mv (.int i)) (frac : ∀ q, mv (.frac q)) (str : ∀ s, mv (.str s))
    (arr : ∀ id t vs, (∀ v ∈ vs, mv v) → mv (.arr id t vs))
    (tup : ∀ id ts vs, (∀ v ∈ vs, mv v) → mv (.tup id ts vs))
    (obj : ∀ o, mo o → mv (.obj o))
    (mk : ∀ id ps par, (∀ p ∈ ps, mv (Pair.value p)) → (∀ q, par = some q → mo q) →
      mo (.mk id ps par)) : (∀ v, mv v) ∧ ∀ o, mo o := by
  have hv : ∀ v, mv v := by
    intro v
    refine Value.rec (motive_1 := mv) (motive_2 := fun p => mv p.value) (motive_3 := mo)
      (motive_4 := fun vs => ∀ v ∈ vs, mv v) (motive_5 := fun ps => ∀ p ∈ ps, mv (Pair.value p))
      (motive_6 := fun par => ∀ q, par = some q → mo q)
      null bool int frac str arr tup obj ?_ mk ?_ ?_ ?_ ?_ ?_ ?_ v
    · intro f v h; exact h
    · simp
    · intro v vs h1 h2 x hx
      rcases List.mem_cons.1 hx with rfl | hx
      · exact h1
      · exact h2 _ hx
    · simp
    · intro v vs h1 h2 x hx
      rcases List.mem_cons.1 hx with rfl | hx
      · exact h1
      · exact h2 _ hx
    · simp
    · intro o h q hq; cases hq; exact h
  refine ⟨hv, ?_⟩
  intro o
  refine Obj.rec (motive_1 := mv) (motive_2 := fun p => mv p.value) (motive_3 := mo)
    (motive_4 := fun vs => ∀ v ∈ vs, mv v) (motive_5 := fun ps => ∀ p ∈ ps, mv (Pair.value p))
    (motive_6 := fun par => ∀ q, par = some q → mo q)
    null bool int frac str arr tup obj ?_ mk ?_ ?_ ?_ ?_ ?_ ?_ o
  · intro f v h; exact h
  · simp
  · intro v vs h1 h2 x hx; exact hv x
  · simp
  · intro v vs h1 h2 x hx; exact hv _
  · simp
  · intro o h q hq; cases hq; exact h

theorem Value.dataL_eq (vs : List Value) : Value.dataL vs = vs.map Value.data := by
  induction vs with
  | nil => simp [Value.dataL]
  | cons v vs ih => simp [Value.dataL, ih]

/-- `data` of a pair. -/
def Pair.data (p : Pair) : Pair := .mk p.field p.value.data

theorem Pair.dataL_eq (ps : List Pair) : Pair.dataL ps = ps.map Pair.data := by
  induction ps with
  | nil => simp [Pair.dataL]
  | cons p ps ih => cases p; simp [Pair.dataL, ih, Pair.data, Pair.field, Pair.value]

theorem Value.data_getType (v : Value) : v.data.getType = v.getType := by
  cases v <;> simp [Value.data, Value.getType]

theorem Value.getType_of_data_eq {v w : Value} (h : v.data = w.data) : v.getType = w.getType := by
  rw [← Value.data_getType v, h, Value.data_getType]

theorem Value.map_getType_of_dataL_eq : ∀ {vs ws : List Value}, vs.map Value.data = ws.map Value.data →
    vs.map Value.getType = ws.map Value.getType
  | [], [], _ => rfl
  | [], _ :: _, h => by simp at h
  | _ :: _, [], h => by simp at h
  | v :: vs, w :: ws, h => by
    simp only [List.map_cons, List.cons.injEq] at h ⊢
    exact ⟨Value.getType_of_data_eq h.1, Value.map_getType_of_dataL_eq h.2⟩

theorem Value.eqL_iff_of : ∀ (vs ws : List Value),
    (∀ v ∈ vs, ∀ w, WellTyped v → WellTyped w → (v.eq w = true ↔ v.data = w.data)) →
    (∀ v ∈ vs, WellTyped v) → (∀ w ∈ ws, WellTyped w) →
    (Value.eqL vs ws = true ↔ vs.map Value.data = ws.map Value.data)
  | [], [], _, _, _ => by simp [Value.eqL]
  | [], _ :: _, _, _, _ => by simp [Value.eqL]
  | _ :: _, [], _, _, _ => by simp [Value.eqL]
  | v :: vs, w :: ws, ih, h1, h2 => by
    have a := ih v (by simp) w (h1 v (by simp)) (h2 w (by simp))
    have b := Value.eqL_iff_of vs ws (fun x hx => ih x (by simp [hx])) (fun x hx => h1 x (by simp [hx]))
      (fun x hx => h2 x (by simp [hx]))
    simp [Value.eqL, a, b]

theorem Pair.eqL_iff_of : ∀ (vs ws : List Pair),
    (∀ v ∈ vs, ∀ w, WellTyped (Pair.value v) → WellTyped w →
      ((Pair.value v).eq w = true ↔ (Pair.value v).data = w.data)) →
    (∀ v ∈ vs, WellTyped (Pair.value v)) → (∀ w ∈ ws, WellTyped (Pair.value w)) →
    (Pair.eqL vs ws = true ↔ vs.map Pair.data = ws.map Pair.data)
  | [], [], _, _, _ => by simp [Pair.eqL]
  | [], _ :: _, _, _, _ => by simp [Pair.eqL]
  | _ :: _, [], _, _, _ => by simp [Pair.eqL]
  | .mk f v :: vs, .mk g w :: ws, ih, h1, h2 => by
    have a := ih (.mk f v) (by simp) w (h1 (.mk f v) (by simp)) (h2 (.mk g w) (by simp))
    have b := Pair.eqL_iff_of vs ws (fun x hx => ih x (by simp [hx])) (fun x hx => h1 x (by simp [hx]))
      (fun x hx => h2 x (by simp [hx]))
    simp only [Pair.value] at a
    simp [Pair.eqL, Pair.eq, a, b, Pair.data, Pair.field, Pair.value]

theorem Value.eq_iff_data :
    (∀ v w, WellTyped v → WellTyped w → (v.eq w = true ↔ v.data = w.data)) ∧
    (∀ o p, WellTypedObj o → WellTypedObj p → (o.eq p = true ↔ o.data = p.data)) := by
  apply Value.ind (mv := fun v => ∀ w, WellTyped v → WellTyped w → (v.eq w = true ↔ v.data = w.data))
    (mo := fun o => ∀ p, WellTypedObj o → WellTypedObj p → (o.eq p = true ↔ o.data = p.data))
  · intro w _ _; cases w <;> simp [Value.eq, Value.data]
  · intro b w _ _; cases w <;> simp [Value.eq, Value.data]
  · intro b w _ _; cases w <;> simp [Value.eq, Value.data]
  · intro b w _ _; cases w <;> simp [Value.eq, Value.data]
  · intro b w _ _; cases w <;> simp [Value.eq, Value.data]
  · intro id t vs ih w hv hw
    cases w with
    | arr id' t' ws =>
      cases hv with | arr hv hvt =>
      cases hw with | arr hw hwt =>
      have h := Value.eqL_iff_of vs ws ih hv hw
      simp only [Value.eq, Value.data, Value.dataL_eq, Value.arr.injEq, true_and]
      constructor
      · intro he
        split at he
        · cases he
        · have hd := h.1 he
          refine ⟨?_, hd⟩
          rw [Value.map_getType_of_dataL_eq hd] at hvt
          exact LeastCommonRefinement.unique (fun _ => Iff.rfl) hvt hwt
      · rintro ⟨rfl, hd⟩
        simp [Ty.eq_refl, h.2 hd]
    | _ => simp [Value.eq, Value.data]
  · intro id ts vs ih w hv hw
    cases w with
    | tup id' ts' ws =>
      cases hv with | tup hv hvt =>
      cases hw with | tup hw hwt =>
      have h := Value.eqL_iff_of vs ws ih hv hw
      simp only [Value.eq, Value.data, Value.dataL_eq, Value.tup.injEq, true_and]
      constructor
      · intro he
        split at he
        · cases he
        · have hd := h.1 he
          exact ⟨by rw [hvt, hwt, Value.map_getType_of_dataL_eq hd], hd⟩
      · rintro ⟨rfl, hd⟩
        have : Ty.eqL ts ts = true := by
          rw [Ty.eqL_iff, List.forall₂_same]; intro a _; exact Ty.eq_refl a
        simp [this, h.2 hd]
    | _ => simp [Value.eq, Value.data]
  · intro o ih w hv hw
    cases w with
    | obj p =>
      cases hv with | obj hv =>
      cases hw with | obj hw =>
      simp [Value.eq, Value.data, ih p hv hw]
    | _ => simp [Value.eq, Value.data]
  · intro id ps par ihv iho p ho hp
    cases ho with | mk ho1 ho2 =>
    cases p with | mk id' ps' par' =>
    cases hp with | mk hp1 hp2 =>
    have h := Pair.eqL_iff_of ps ps' ihv ho1 hp1
    simp only [Obj.eq, Obj.data, Pair.dataL_eq, Obj.mk.injEq, true_and]
    cases par with
    | none =>
      cases par' with
      | none => simp [Obj.eqParent, Obj.dataP, h]
      | some q' => simp [Obj.eqParent, Obj.dataP]
    | some q =>
      cases par' with
      | none => simp [Obj.eqParent, Obj.dataP]
      | some q' =>
        have hq := iho q rfl q' (ho2 q rfl) (hp2 q' rfl)
        simp only [Obj.eqParent, Obj.dataP, Option.some.injEq, ← hq, ← h]
        by_cases hqq : q.eq q' = true <;> simp [hqq]

/-! ## Array type checks -/

/-- The fold of `most_specific` over the types of the values, as performed by the array checks. -/
theorem Arr.checkTypes_eq (t : Ty) (f : Bool) (vs : List Value) (hf : f = t.hasAny) :
    match Arr.checkTypes t f vs with
    | .ok c => LeastCommonRefinement c (t :: vs.map Value.getType)
    | .error e => ∃ before v after c, vs = before ++ v :: after ∧
        LeastCommonRefinement c (t :: before.map Value.getType) ∧ c.eq v.getType = false ∧
        e = .arrTypeMismatch c v.getType := by
  induction vs generalizing t f with
  | nil =>
    simp only [Arr.checkTypes]
    refine ⟨?_, ?_⟩
    · intro u hu; simp at hu; subst hu; exact .refl _
    · intro d hd; exact hd t (by simp)
  | cons v vs ih =>
    simp only [Arr.checkTypes, arrTypeStep_eq t f v.getType hf]
    cases hm : Ty.mostSpecific t v.getType with
    | none =>
      refine ⟨[], v, vs, t, rfl, ⟨?_, ?_⟩, ?_, rfl⟩
      · intro u hu; simp at hu; subst hu; exact .refl _
      · intro d hd; exact hd t (by simp)
      · have := Ty.mostSpecific_isSome_iff t v.getType
        rw [hm] at this; simpa using this
    | some cf =>
      obtain ⟨c, g⟩ := cf
      have hs := Ty.mostSpecific_spec t v.getType
      rw [hm] at hs
      have h := ih c g hs.2.2.2
      have comm : ∀ d l, CommonRefinement d (c :: l) ↔ CommonRefinement d (t :: v.getType :: l) := by
        intro d l
        constructor
        · intro h u hu
          have hc := h c (by simp)
          simp only [List.mem_cons] at hu
          rcases hu with rfl | rfl | hu
          · exact hc.trans hs.1
          · exact hc.trans hs.2.1
          · exact h u (by simp [hu])
        · intro hd u hu
          simp only [List.mem_cons] at hu
          rcases hu with rfl | hu
          · exact hs.2.2.1 d (hd t (by simp)) (hd _ (by simp))
          · exact hd u (by simp [hu])
      dsimp only
      cases hk : Arr.checkTypes c g vs with
      | ok c' =>
        rw [hk] at h
        obtain ⟨h1, h2⟩ := h
        refine ⟨(comm _ _).1 h1, ?_⟩
        intro d hd; exact h2 d ((comm d _).2 hd)
      | error e =>
        rw [hk] at h
        obtain ⟨before, w, after, c', h1, ⟨h2, h3⟩, h4, h5⟩ := h
        refine ⟨v :: before, w, after, c', by simp [h1], ⟨(comm _ _).1 h2, ?_⟩, h4, h5⟩
        intro d hd; exact h3 d ((comm d _).2 hd)

end Over

namespace Over

theorem lcr_any_cons {c : Ty} {l : List Ty} :
    LeastCommonRefinement c (.any :: l) ↔ LeastCommonRefinement c l := by
  have key : ∀ d, CommonRefinement d (.any :: l) ↔ CommonRefinement d l := by
    intro d
    constructor
    · intro h t ht; exact h t (by simp [ht])
    · intro h t ht
      rcases List.mem_cons.1 ht with rfl | ht
      · exact .any _
      · exact h t ht
  simp only [LeastCommonRefinement, key]

theorem lcr_nil {c : Ty} : LeastCommonRefinement c [] ↔ c = .any := by
  constructor
  · intro h
    have := h.2 .any (by intro t ht; cases ht)
    exact Refines.antisymm (.any _) this
  · rintro rfl
    refine ⟨?_, fun d _ => .any d⟩
    intro t ht
    cases ht

theorem exists_lcr {l : List Ty} : ∀ {c : Ty}, CommonRefinement c l →
    ∃ d, LeastCommonRefinement d l := by
  induction l with
  | nil => intro c _; exact ⟨.any, lcr_nil.2 rfl⟩
  | cons t l ih =>
    intro c h
    obtain ⟨d, hd⟩ := ih (c := c) (fun u hu => h u (by simp [hu]))
    have hs := Ty.mostSpecific_spec t d
    cases hm : Ty.mostSpecific t d with
    | none =>
      rw [hm] at hs
      exact absurd ⟨h t (by simp), hd.2 c (fun u hu => h u (by simp [hu]))⟩ (hs c)
    | some x =>
      rw [hm] at hs
      refine ⟨x.1, ?_, ?_⟩
      · intro u hu
        rcases List.mem_cons.1 hu with rfl | hu
        · exact hs.1
        · exact hs.2.1.trans (hd.1 u hu)
      · intro e he
        exact hs.2.2.1 e (he t (by simp)) (hd.2 e (fun u hu => he u (by simp [hu])))

theorem compat_lcr (x : Ty) {l : List Ty} : ∀ {c : Ty}, LeastCommonRefinement c l →
    (∀ t ∈ l, x.eq t = true) → x.eq c = true := by
  induction l with
  | nil => intro c h _; rw [lcr_nil.1 h]; exact Ty.eq_any_right x
  | cons t l ih =>
    intro c h hx
    obtain ⟨d, hd⟩ := exists_lcr (c := c) (l := l) (fun u hu => h.1 u (by simp [hu]))
    have hs := Ty.mostSpecific_spec t d
    cases hm : Ty.mostSpecific t d with
    | none =>
      rw [hm] at hs
      exact absurd ⟨h.1 t (by simp), hd.2 c (fun u hu => h.1 u (by simp [hu]))⟩ (hs c)
    | some y =>
      obtain ⟨y, g⟩ := y
      rw [hm] at hs
      have hy : LeastCommonRefinement y (t :: l) := by
        refine ⟨?_, ?_⟩
        · intro u hu
          rcases List.mem_cons.1 hu with rfl | hu
          · exact hs.1
          · exact hs.2.1.trans (hd.1 u hu)
        · intro e he
          exact hs.2.2.1 e (he t (by simp)) (hd.2 e (fun u hu => he u (by simp [hu])))
      rw [LeastCommonRefinement.unique (fun _ => Iff.rfl) h hy]
      exact Ty.compat_join x t d y g hm (hx t (by simp)) (ih hd (fun u hu => hx u (by simp [hu])))

theorem Ty.eq_comm (a b : Ty) : a.eq b = b.eq a := by
  rw [Bool.eq_iff_iff]; exact ⟨Ty.eq_symm, Ty.eq_symm⟩

/-- `from_values`, characterised. -/
theorem Arr.fromValues_spec (id : Nat) (vs : List Value) :
    match Arr.fromValues id vs with
    | .ok a => a.id = id ∧ a.values = vs ∧ LeastCommonRefinement a.ty (vs.map Value.getType)
    | .error e => ∃ before v after c, vs = before ++ v :: after ∧
        LeastCommonRefinement c (before.map Value.getType) ∧ c.eq v.getType = false ∧
        e = .arrTypeMismatch c v.getType := by
  have h := Arr.checkTypes_eq .any true vs rfl
  unfold Arr.fromValues
  cases hc : Arr.checkTypes .any true vs with
  | ok c =>
    rw [hc] at h
    exact ⟨rfl, rfl, lcr_any_cons.1 h⟩
  | error e =>
    rw [hc] at h
    obtain ⟨b, v, a, c, h1, h2, h3⟩ := h
    exact ⟨b, v, a, c, h1, lcr_any_cons.1 h2, h3⟩

theorem Arr.fromValues_ok_of_common (id : Nat) (vs : List Value) {c : Ty}
    (h : CommonRefinement c (vs.map Value.getType)) : ∃ a, Arr.fromValues id vs = .ok a := by
  have hs := Arr.fromValues_spec id vs
  cases hf : Arr.fromValues id vs with
  | ok a => exact ⟨a, rfl⟩
  | error e =>
    rw [hf] at hs
    obtain ⟨b, v, a, d, h1, h2, h3, _⟩ := hs
    subst h1
    have : d.eq v.getType = true := (Ty.eq_iff_common _ _).2
      ⟨c, h2.2 c (fun t ht => h t (by rw [List.map_append]; exact List.mem_append_left _ ht)), h _ (by simp)⟩
    rw [this] at h3; cases h3

end Over
