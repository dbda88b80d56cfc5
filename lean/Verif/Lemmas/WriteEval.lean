import Verif.Lemmas.Write

/-! # Evaluating the tree of a written value -/

namespace Over

/-- The state with another state of the process. -/
def ESt.withId (st : ESt) (k : Rt) : ESt := { st with rt := k }

/-- The state of the process after creating a container. -/
def Rt.next (rt : Rt) : Rt := rt.after { rt.toShared with curId := rt.curId + 1 }

theorem ESt.withId_withId (st : ESt) (i k : Rt) : (st.withId i).withId k = st.withId k := rfl
theorem ESt.withId_self (st : ESt) : st.withId st.rt = st := rfl

theorem EM.bind_ok {α β : Type} {m : EM α} {f : α → EM β} {st st' : ESt} {a : α} (h : m st = .ok (a, st')) :
    (m >>= f) st = f a st' := by
  show EM.bind m f st = _
  simp only [EM.bind, h]

theorem EM.bind_err {α β : Type} {m : EM α} {f : α → EM β} {st : ESt} {e : SemErr} (h : m st = .error e) :
    (m >>= f) st = .error e := by
  show EM.bind m f st = _
  simp only [EM.bind, h]

theorem EM.pure_apply {α : Type} (a : α) (st : ESt) : (pure a : EM α) st = .ok (a, st) := rfl

theorem EM.fresh_eq (st : ESt) : EM.fresh st = .ok (st.rt.curId, st.withId st.rt.next) := rfl

/-- The action yields `x'` related to `x` and only moves the id counter, or exceeds the depth. -/
def Redo {α : Type} (file : Option Str) (ev : EM α) (st : ESt) (fits : Prop) (ok : α → Prop) : Prop :=
  (fits → ∃ a k, ev st = .ok (a, st.withId k) ∧ ok a) ∧
  (¬ fits → ev st = .error (.sem file .maxDepth))

section
variable {fs : FS} {file : Option Str} {stack : List Str} {load : Loader}

theorem redo_pure {α : Type} {ev : EM α} {st : ESt} {fits : Prop} {ok : α → Prop} {a : α} (hf : fits)
    (h : ev st = .ok (a, st)) (ho : ok a) : Redo file ev st fits ok :=
  ⟨fun _ => ⟨a, st.rt, by rw [h, ESt.withId_self], ho⟩, fun h => absurd hf h⟩

theorem redo_bind {α β : Type} {m : EM α} {f : α → EM β} {st : ESt} {fits fits1 : Prop}
    {ok : α → Prop} {ok' : β → Prop} (h : Redo file m st fits1 ok)
    (hf : ∀ a k, fits1 → ok a → Redo file (f a) (st.withId k) fits ok') (h1 : fits → fits1) :
    Redo file (m >>= f) st fits ok' := by
  constructor
  · intro hfit
    obtain ⟨a, k, ha, ho⟩ := h.1 (h1 hfit)
    obtain ⟨b, k', hb, ho'⟩ := (hf a k (h1 hfit) ho).1 hfit
    exact ⟨b, k', by rw [EM.bind_ok ha, hb, ESt.withId_withId], ho'⟩
  · intro hfit
    by_cases h2 : fits1
    · obtain ⟨a, k, ha, ho⟩ := h.1 h2
      rw [EM.bind_ok ha]
      exact (hf a k h2 ho).2 hfit
    · exact EM.bind_err (h.2 h2)

theorem eval_single (t : Term) (pairs : List Pair) (d : Nat) (st : ESt) :
    evalExpr fs file stack load (.mk t []) pairs d st = evalTerm fs file stack load t pairs d st := by
  simp only [evalExpr, evalChain, bind, EM.bind]
  cases evalTerm fs file stack load t pairs d st <;> rfl

theorem eval_intTerm (i : Int) (pairs : List Pair) (d : Nat) (st : ESt) :
    evalTerm fs file stack load (intTerm i) pairs d st = .ok (.int i, st) := by
  cases i with
  | ofNat n => rfl
  | negSucc n => rfl

theorem eval_wholeTerm (i : Int) (pairs : List Pair) (d : Nat) (st : ESt) :
    evalTerm fs file stack load (wholeTerm i) pairs d st = .ok (.frac i, st) := by
  cases i with
  | ofNat n => simp [wholeTerm, evalTerm, EM.pure_apply]
  | negSucc n =>
    simp only [wholeTerm, evalTerm, bind, EM.bind, EM.pure_apply, applyUn, Except.ok.injEq, Prod.mk.injEq,
      and_true, Value.frac.injEq]
    rw [Int.negSucc_eq]
    push_cast
    rfl

theorem eval_ratExpr (q : Rat) (pairs : List Pair) (d : Nat) (st : ESt) :
    evalExpr fs file stack load (ratExpr q) pairs d st = .ok (.frac q, st) := by
  unfold ratExpr
  split
  · rename_i h
    rw [eval_single, eval_wholeTerm]
    rw [show ((q.num : Int) : Rat) = q from (Rat.den_eq_one_iff q).1 h]
  · have h0 : ((q.den : Int) : Rat) ≠ 0 := by
      have := q.den_nz
      exact_mod_cast this
    have hq : ((q.num : Int) : Rat) / ((q.den : Int) : Rat) = q := by
      have := Rat.num_div_den q
      exact_mod_cast this
    have h1 : applyBin file .div (.int q.num) (.int q.den) = pure (.frac q) := by
      unfold applyBin
      simp only [binSem, divSem, h0, if_false, hq]
    simp only [evalExpr, evalChain]
    rw [EM.bind_ok (eval_intTerm q.num pairs d st)]
    have h2 : evalTerm fs file stack load (.int q.den) pairs d st = .ok (.int q.den, st) := rfl
    simp only [BinOp.tight, if_true]
    simp only [bind, EM.bind, h2, h1, EM.pure_apply, sumLeft]

/-- What re-evaluating the tree of `v` does. -/
def RedoVal (fs : FS) (file : Option Str) (stack : List Str) (load : Loader) (v : Value) : Prop :=
  ∀ pairs d st, d ≤ 64 → Redo file (evalExpr fs file stack load v.ast pairs d) st (d + v.nest ≤ 64)
    (fun v' => v'.data = v.data)

theorem redo_items {vs : List Value} (ih : ∀ v ∈ vs, RedoVal fs file stack load v) (pairs : List Pair)
    (d : Nat) (hd : d ≤ 64) (st : ESt) :
    Redo file (evalItems fs file stack load (Value.astL vs) pairs d) st (d + Value.nestL vs ≤ 64)
      (fun vs' => vs'.map Value.data = vs.map Value.data) := by
  induction vs generalizing st with
  | nil => exact redo_pure (by simpa [Value.nestL] using hd) rfl rfl
  | cons v vs IH =>
    simp only [Value.astL, evalItems, Value.nestL]
    refine redo_bind (ih v (by simp) pairs d st hd) ?_ (by omega)
    intro v' k h1 hv
    refine redo_bind (IH (fun w hw => ih w (by simp [hw])) _) ?_ (by omega)
    intro vs' k' h2 hvs
    exact redo_pure (by omega) rfl (by simp [hv, hvs])

theorem redo_elems {vs : List Value} (ih : ∀ v ∈ vs, RedoVal fs file stack load v) (pairs : List Pair)
    (d : Nat) (hd : d ≤ 64) (st : ESt) (t c : Ty) (hc : CommonRefinement c (t :: vs.map Value.getType)) :
    Redo file (evalElems fs file stack load (Value.astL vs) pairs d t) st (d + Value.nestL vs ≤ 64)
      (fun r => r.1.map Value.data = vs.map Value.data ∧
        LeastCommonRefinement r.2 (t :: vs.map Value.getType)) := by
  induction vs generalizing st t with
  | nil =>
    refine redo_pure (a := ([], t)) (by simpa [Value.nestL] using hd) rfl ⟨rfl, ?_, ?_⟩
    · intro u hu
      have : u = t := by simpa using hu
      rw [this]; exact .refl _
    · intro u hu; exact hu t (by simp)
  | cons v vs IH =>
    simp only [Value.astL, evalElems, Value.nestL]
    refine redo_bind (ih v (by simp) pairs d st hd) ?_ (by omega)
    intro v' k h1 hv
    rw [Value.getType_of_data_eq hv]
    have hs := Ty.mostSpecific_spec t v.getType
    cases hm : Ty.mostSpecific t v.getType with
    | none =>
      rw [hm] at hs
      exact absurd ⟨hc t (by simp), hc v.getType (by simp)⟩ (hs c)
    | some x =>
      obtain ⟨u, f⟩ := x
      rw [hm] at hs
      obtain ⟨hu1, hu2, hu3, -⟩ := hs
      have hcu : CommonRefinement c (u :: vs.map Value.getType) := by
        intro w hw
        rcases List.mem_cons.1 hw with rfl | hw
        · exact hu3 c (hc t (by simp)) (hc v.getType (by simp))
        · exact hc w (by simp only [List.map_cons, List.mem_cons]; exact .inr (.inr hw))
      refine redo_bind (IH (fun w hw => ih w (by simp [hw])) _ u hcu) ?_ (by omega)
      rintro ⟨vs', t'⟩ k' h2 ⟨hvs, hl⟩
      refine redo_pure (a := (v' :: vs', t')) (by omega) rfl ⟨by simpa [hv] using hvs, ?_, ?_⟩
      · intro w hw
        simp only [List.map_cons, List.mem_cons] at hw
        rcases hw with rfl | rfl | hw
        · exact (hl.1 u (by simp)).trans hu1
        · exact (hl.1 u (by simp)).trans hu2
        · exact hl.1 w (by simp [hw])
      · intro w hw
        refine hl.2 w ?_
        intro x hx
        rcases List.mem_cons.1 hx with rfl | hx
        · exact hu3 w (hw t (by simp)) (hw v.getType (by simp))
        · exact hw x (by simp only [List.map_cons, List.mem_cons]; exact .inr (.inr hx))

theorem redo_fields {ps : List Pair} (ih : ∀ p ∈ ps, RedoVal fs file stack load (Pair.value p))
    (d : Nat) (hd : d ≤ 64) (st : ESt) (pairs : List Pair) (par : Option Obj)
    (hnd : (pairs.map Pair.field ++ ps.map Pair.field).Nodup) :
    Redo file (evalFields fs file stack load (Pair.astL ps) d pairs par) st (d + Pair.nestL ps ≤ 64)
      (fun r => (∃ ps', r.1 = pairs ++ ps' ∧ ps'.map Pair.data = ps.map Pair.data) ∧ r.2 = par) := by
  induction ps generalizing st pairs with
  | nil =>
    exact redo_pure (a := (pairs, par)) (by simpa [Pair.nestL] using hd) rfl ⟨⟨[], by simp, rfl⟩, rfl⟩
  | cons p ps IH =>
    obtain ⟨f, v⟩ := p
    have hnew : f ∉ pairs.map Pair.field := by
      intro hf
      have := (List.nodup_append.1 hnd).2.2 f hf f (by simp [Pair.field])
      exact this rfl
    simp only [Pair.astL, evalFields, Pair.nestL, checkNew, hnew, if_false]
    refine redo_bind (fits1 := True) (ok := fun _ => True) (redo_pure trivial rfl trivial) ?_ (fun _ => trivial)
    intro _ k0 _ _
    refine redo_bind (ih (.mk f v) (by simp) pairs d _ hd) ?_ (by simp only [Pair.value]; omega)
    intro v' k h1 hv
    simp only [Pair.value] at hv h1
    have h := IH (fun w hw => ih w (by simp [hw])) ((st.withId k0).withId k) (pairs ++ [.mk f v'])
      (by simpa [Pair.field] using hnd)
    constructor
    · intro hf
      obtain ⟨r, k, hr, ⟨ps', h2, h3⟩, h4⟩ := h.1 (by omega)
      exact ⟨r, k, hr, ⟨.mk f v' :: ps', by simp [h2], by simp [Pair.data, Pair.field, Pair.value, hv, h3]⟩, h4⟩
    · intro hf
      exact h.2 (by omega)

theorem depthCheck_redo (d : Nat) (st : ESt) (fits : Prop) (hf : fits → d ≤ 64) {α : Type} {ev : EM α}
    {ok : α → Prop} (h : d ≤ 64 → ∀ st, Redo file ev st fits ok) :
    Redo file (depthCheck file d >>= fun _ => ev) st fits ok := by
  by_cases hd : d > 64
  · refine ⟨fun h => absurd (hf h) (by omega), fun _ => ?_⟩
    exact EM.bind_err (by simp [depthCheck, hd, EM.fail])
  · have h0 : depthCheck file d st = .ok ((), st) := by simp [depthCheck, hd, EM.pure_apply]
    unfold Redo
    rw [EM.bind_ok h0]
    exact h (by omega) st

/-- What re-evaluating the definitions of the object `o` does. -/
def RedoObj (fs : FS) (file : Option Str) (stack : List Str) (load : Loader) (o : Obj) : Prop :=
  ∀ d st, d ≤ 64 → Redo file (evalFields fs file stack load o.ast d [] none) st (d + o.nest ≤ 64)
    (fun r => r.1.map Pair.data = o.pairs.map Pair.data ∧ Obj.dataP r.2 = Obj.dataP o.parent)

theorem redo_objTerm {o : Obj} (h : RedoObj fs file stack load o) (pairs : List Pair) (d : Nat) (st : ESt) :
    Redo file (evalTerm fs file stack load (.obj o.ast) pairs d) st (d + (o.nest + 1) ≤ 64)
      (fun v => ∃ o', v = .obj o' ∧ o'.data = o.data) := by
  simp only [evalTerm]
  refine depthCheck_redo _ _ _ (by omega) ?_
  intro hd st
  refine redo_bind (h (d + 1) st hd) ?_ (by omega)
  rintro ⟨ps, par⟩ k h1 ⟨h2, h3⟩
  refine redo_bind (fits1 := True) (ok := fun _ => True) ⟨fun _ => ⟨_, _, EM.fresh_eq _, trivial⟩, fun h => absurd trivial h⟩ ?_
    (fun _ => trivial)
  intro id k _ _
  refine redo_pure (by omega) rfl ⟨.mk id ps par, rfl, ?_⟩
  cases o with
  | mk id' ps' par' =>
    simp only [Obj.data, Pair.dataL_eq, Obj.pairs, Obj.parent] at *
    rw [h2, h3]

variable [Unicode]

theorem redo_all :
    (∀ v : Value, WellTyped v → NamesOk v → RedoVal fs file stack load v) ∧
    (∀ o : Obj, WellTypedObj o → NamesOkObj o → RedoObj fs file stack load o) := by
  apply Value.ind (mv := fun v => WellTyped v → NamesOk v → RedoVal fs file stack load v)
    (mo := fun o => WellTypedObj o → NamesOkObj o → RedoObj fs file stack load o)
  · intro _ _ pairs d st hd
    exact redo_pure (by simpa [Value.nest] using hd) rfl rfl
  · intro b _ _ pairs d st hd
    refine redo_pure (a := .bool b) (by simpa [Value.nest] using hd) ?_ rfl
    cases b <;> rfl
  · intro i _ _ pairs d st hd
    exact redo_pure (a := .int i) (by simpa [Value.nest] using hd)
      (by rw [Value.ast, eval_single, eval_intTerm]) rfl
  · intro q _ _ pairs d st hd
    exact redo_pure (a := .frac q) (by simpa [Value.nest] using hd) (by rw [Value.ast, eval_ratExpr]) rfl
  · intro x _ _ pairs d st hd
    exact redo_pure (a := .str x) (by simpa [Value.nest] using hd) (by rw [Value.ast, eval_single]; rfl) rfl
  · intro id t vs ih hw hn pairs d st hd
    cases hw with | arr hw ht =>
    cases hn with | arr hn =>
    have ih' : ∀ v ∈ vs, RedoVal fs file stack load v := fun v hv => ih v hv (hw v hv) (hn v hv)
    unfold Redo
    simp only [Value.ast, eval_single, evalTerm, Value.nest]
    refine depthCheck_redo _ _ _ (by omega) ?_
    intro hd st
    have hc : CommonRefinement t (.any :: vs.map Value.getType) := by
      intro u hu
      rcases List.mem_cons.1 hu with rfl | hu
      · exact .any _
      · exact ht.1 u hu
    refine redo_bind (redo_elems ih' pairs (d + 1) hd st .any t hc) ?_ (by omega)
    rintro ⟨vs', t'⟩ k h1 ⟨h2, h3⟩
    refine redo_bind (fits1 := True) (ok := fun _ => True) ⟨fun _ => ⟨_, _, EM.fresh_eq _, trivial⟩, fun h => absurd trivial h⟩ ?_
      (fun _ => trivial)
    intro id' k _ _
    refine redo_pure (by omega) rfl ?_
    rw [lcr_any_cons] at h3
    have := LeastCommonRefinement.unique (fun _ => Iff.rfl) h3 ht
    subst this
    simp only [Value.data, Value.dataL_eq, h2]
  · intro id ts vs ih hw hn pairs d st hd
    cases hw with | tup hw ht =>
    cases hn with | tup hn =>
    have ih' : ∀ v ∈ vs, RedoVal fs file stack load v := fun v hv => ih v hv (hw v hv) (hn v hv)
    unfold Redo
    simp only [Value.ast, eval_single, evalTerm, Value.nest]
    refine depthCheck_redo _ _ _ (by omega) ?_
    intro hd st
    refine redo_bind (redo_items ih' pairs (d + 1) hd st) ?_ (by omega)
    intro vs' k h1 h2
    refine redo_bind (fits1 := True) (ok := fun _ => True) ⟨fun _ => ⟨_, _, EM.fresh_eq _, trivial⟩, fun h => absurd trivial h⟩ ?_
      (fun _ => trivial)
    intro id' k _ _
    refine redo_pure (by omega) rfl ?_
    simp only [Value.data, Value.dataL_eq, h2, ht, Value.map_getType_of_dataL_eq h2]
  · intro o ih hw hn pairs d st hd
    cases hw with | obj hw =>
    cases hn with | obj hn =>
    have h := redo_objTerm (ih hw hn) pairs d st
    unfold Redo at h ⊢
    simp only [Value.ast, eval_single, Value.nest]
    refine ⟨fun hf => ?_, h.2⟩
    obtain ⟨a, k, h1, o', rfl, h2⟩ := h.1 hf
    exact ⟨_, k, h1, by simp only [Value.data, h2]⟩
  · intro id ps par ihv ihp hw hn d st hd
    cases hw with | mk hw hwp =>
    cases hn with | mk _ hnd hn hnp =>
    have ih' : ∀ p ∈ ps, RedoVal fs file stack load (Pair.value p) := fun p hp => ihv p hp (hw p hp) (hn p hp)
    simp only [Obj.ast, Obj.nest]
    cases par with
    | none =>
      have h := redo_fields ih' d hd st [] none (by simpa using hnd)
      refine ⟨fun hf => ?_, fun hf => h.2 (by simpa [Obj.nestP] using hf)⟩
      obtain ⟨r, k, h1, ⟨ps', h2, h3⟩, h4⟩ := h.1 (by simpa [Obj.nestP] using hf)
      refine ⟨r, k, h1, ?_, by rw [h4]; rfl⟩
      rw [h2, List.nil_append]; exact h3
    | some q =>
      have hq := redo_objTerm (ihp q rfl (hwp q rfl) (hnp q rfl)) [] d
      simp only [Obj.astP, List.cons_append, List.nil_append, evalFields, checkNew, Option.isSome_none, Obj.nestP,
        Bool.false_eq_true, if_false]
      refine redo_bind (fits1 := True) (ok := fun _ => True) (redo_pure trivial rfl trivial) ?_ (fun _ => trivial)
      intro _ k0 _ _
      refine redo_bind (fits1 := d + (q.nest + 1) ≤ 64) (ok := fun v => ∃ o', v = .obj o' ∧ o'.data = q.data) ?_ ?_ (by omega)
      · have h := hq (st.withId k0)
        unfold Redo at h ⊢
        simp only [eval_single]
        exact h
      rintro v k h1 ⟨o', rfl, h2⟩
      have h := redo_fields ih' d hd ((st.withId k0).withId k) [] (some o') (by simpa using hnd)
      refine ⟨fun hf => ?_, fun hf => h.2 (by omega)⟩
      obtain ⟨r, k, h3, ⟨ps', h4, h5⟩, h6⟩ := h.1 (by omega)
      refine ⟨r, k, h3, ?_, by rw [h6]; simp only [Obj.parent, Obj.dataP, h2]⟩
      rw [h4, List.nil_append]; exact h5

/-- Re-evaluating a written object. -/
theorem redo_doc {o : Obj} (hw : WellTypedObj o) (hn : NamesOkObj o) (st : ESt) :
    Redo file (evalDoc fs file stack load o.ast) st (o.nest ≤ 63) (fun o' => o'.data = o.data) := by
  unfold evalDoc
  refine redo_bind (redo_all.2 o hw hn 1 st (by omega)) ?_ (by omega)
  rintro ⟨ps, par⟩ k h1 ⟨h2, h3⟩
  refine redo_bind (fits1 := True) (ok := fun _ => True) ⟨fun _ => ⟨_, _, EM.fresh_eq _, trivial⟩, fun h => absurd trivial h⟩ ?_
    (fun _ => trivial)
  intro id k _ _
  refine redo_pure (by omega) rfl ?_
  cases o with
  | mk id' ps' par' =>
    simp only [Obj.data, Pair.dataL_eq, Obj.pairs, Obj.parent] at *
    rw [h2, h3]

end

end Over
