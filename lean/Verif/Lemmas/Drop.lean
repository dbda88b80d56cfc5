import Verif.Lemmas.Inline3
import Verif.Lemmas.Cut
import Verif.Spec.RenameNames
import Verif.Spec.Depth

/-! # Definitions of globals that are not used -/

namespace Over

section
variable {g : Str}

mutual
theorem Term.inl_of_avoids : ∀ (t : Term), t.avoids g = true → ∀ {Θ Γ : Defs}, InlTerm (· = g) Θ Γ t t
  | .str _, _, _, _ => .str
  | .int _, _, _, _ => .int
  | .frac _, _, _, _ => .frac
  | .name x, h, _, _ => .name (by simpa [Term.avoids] using h)
  | .dot x t, h, _, _ => by
    simp only [Term.avoids, Bool.and_eq_true, bne_iff_ne] at h
    exact .dot h.1 (Term.inl_of_avoids t h.2)
  | .neg t, h, _, _ => .neg (Term.inl_of_avoids t (by simpa only [Term.avoids] using h))
  | .pos t, h, _, _ => .pos (Term.inl_of_avoids t (by simpa only [Term.avoids] using h))
  | .arr es, h, _, _ => .arr (Expr.inlL_of_avoids es (by simpa only [Term.avoids] using h))
  | .tup es, h, _, _ => .tup (Expr.inlL_of_avoids es (by simpa only [Term.avoids] using h))
  | .obj fds, h, _, _ => .obj (Field.inlL_of_avoids fds (by simpa only [Term.avoids] using h))
  | .incl e, h, _, _ => .incl (Expr.inl_of_avoids e (by simpa only [Term.avoids] using h))
  | .inclAs k e, h, _, _ => by
    simp only [Term.avoids, Bool.and_eq_true] at h
    exact .inclAs (Expr.inl_of_avoids k h.1) (Expr.inl_of_avoids e h.2)
termination_by structural t => t
theorem Expr.inl_of_avoids : ∀ (e : Expr), e.avoids g = true → ∀ {Θ Γ : Defs}, InlExpr (· = g) Θ Γ e e
  | .mk t r, h, _, _ => by
    simp only [Expr.avoids, Bool.and_eq_true] at h
    exact .mk (Term.inl_of_avoids t h.1) (OpTerm.inlL_of_avoids r h.2)
termination_by structural t => t
theorem OpTerm.inlL_of_avoids : ∀ (r : List OpTerm), OpTerm.avoidsL g r = true → ∀ {Θ Γ : Defs}, InlOps (· = g) Θ Γ r r
  | [], _, _, _ => .nil
  | .mk _ t :: r, h, _, _ => by
    simp only [OpTerm.avoidsL, Bool.and_eq_true] at h
    exact .cons (Term.inl_of_avoids t h.1) (OpTerm.inlL_of_avoids r h.2)
termination_by structural t => t
theorem Expr.inlL_of_avoids : ∀ (es : List Expr), Expr.avoidsL g es = true → ∀ {Θ Γ : Defs}, InlItems (· = g) Θ Γ es es
  | [], _, _, _ => .nil
  | e :: es, h, _, _ => by
    simp only [Expr.avoidsL, Bool.and_eq_true] at h
    exact .cons (Expr.inl_of_avoids e h.1) (Expr.inlL_of_avoids es h.2)
termination_by structural t => t
theorem Field.inlL_of_avoids : ∀ (fds : List Field), Field.avoidsL g fds = true → ∀ {Θ Γ : Defs}, InlFields (· = g) Θ Γ fds fds
  | [], _, _, _ => .nil
  | .mk tg e :: fds, h, _, _ => by
    simp only [Field.avoidsL, Bool.and_eq_true, bne_iff_ne] at h
    refine .cons ?_ (Expr.inl_of_avoids e h.1.2) (Field.inlL_of_avoids fds h.2)
    rintro g' rfl rfl
    exact h.1.1 rfl
termination_by structural t => t
end

end

/-! ## Nothing replaced -/

mutual
theorem InlTerm.refl {U : Str → Prop} (hU : ∀ x, ¬ U x) : ∀ (t : Term) {Θ Γ : Defs}, InlTerm U Θ Γ t t
  | .str _, _, _ => .str
  | .int _, _, _ => .int
  | .frac _, _, _ => .frac
  | .name _, _, _ => .name (hU _)
  | .dot _ t, _, _ => .dot (hU _) (InlTerm.refl hU t)
  | .neg t, _, _ => .neg (InlTerm.refl hU t)
  | .pos t, _, _ => .pos (InlTerm.refl hU t)
  | .arr es, _, _ => .arr (InlItems.refl hU es)
  | .tup es, _, _ => .tup (InlItems.refl hU es)
  | .obj fds, _, _ => .obj (InlFields.refl hU fds)
  | .incl e, _, _ => .incl (InlExpr.refl hU e)
  | .inclAs k e, _, _ => .inclAs (InlExpr.refl hU k) (InlExpr.refl hU e)
termination_by structural t => t
theorem InlExpr.refl {U : Str → Prop} (hU : ∀ x, ¬ U x) : ∀ (e : Expr) {Θ Γ : Defs}, InlExpr U Θ Γ e e
  | .mk t r, _, _ => .mk (InlTerm.refl hU t) (InlOps.refl hU r)
termination_by structural t => t
theorem InlOps.refl {U : Str → Prop} (hU : ∀ x, ¬ U x) : ∀ (r : List OpTerm) {Θ Γ : Defs}, InlOps U Θ Γ r r
  | [], _, _ => .nil
  | .mk _ t :: r, _, _ => .cons (InlTerm.refl hU t) (InlOps.refl hU r)
termination_by structural t => t
theorem InlItems.refl {U : Str → Prop} (hU : ∀ x, ¬ U x) : ∀ (es : List Expr) {Θ Γ : Defs}, InlItems U Θ Γ es es
  | [], _, _ => .nil
  | e :: es, _, _ => .cons (InlExpr.refl hU e) (InlItems.refl hU es)
termination_by structural t => t
theorem InlFields.refl {U : Str → Prop} (hU : ∀ x, ¬ U x) : ∀ (fds : List Field) {Θ Γ : Defs}, InlFields U Θ Γ fds fds
  | [], _, _ => .nil
  | .mk _ e :: fds, _, _ => .cons (fun _ _ => hU _) (InlExpr.refl hU e) (InlFields.refl hU fds)
termination_by structural t => t
end

theorem InlDoc.after {U : Str → Prop} (hU : ∀ x, ¬ U x) {Θ Γ : Defs} {B B' : List Field} (h : InlDoc U Θ Γ B B') :
    ∀ A : List Field, InlDoc U Θ Γ (A ++ B) (A ++ B')
  | [] => h
  | .mk _ e :: A => .cons (fun _ _ => hU _) (InlExpr.refl hU e) (InlDoc.after hU h A)

/-! ## Without includes nothing is loaded -/

/-- The action loads no file, and does not use those that have been loaded. -/
def NoLoad {α : Type} (m : EM α) : Prop := ∀ st a st1, m st = .ok (a, st1) →
  st1.cache = st.cache ∧ ∀ c, m { st with cache := c } = .ok (a, { st1 with cache := c })

section
variable {α β : Type}

theorem NoLoad.bind {m : EM α} {k : α → EM β} (h : NoLoad m) (hk : ∀ a, NoLoad (k a)) : NoLoad (m >>= k) := by
  intro st b st1 e
  cases em : m st with
  | error x => rw [EM.bind_err em] at e; cases e
  | ok x =>
    obtain ⟨a, stm⟩ := x
    rw [EM.bind_ok em] at e
    obtain ⟨h1, h2⟩ := h st a stm em
    obtain ⟨h3, h4⟩ := hk a stm b st1 e
    exact ⟨h3.trans h1, fun c => by rw [EM.bind_ok (h2 c)]; exact h4 c⟩

theorem NoLoad.pure (a : α) : NoLoad (pure a : EM α) := by intro st b st1 e; cases e; exact ⟨rfl, fun _ => rfl⟩
theorem NoLoad.fail (file : Option Str) (k : SemKind) : NoLoad (EM.fail file k : EM α) := by intro st b st1 e; cases e
theorem NoLoad.fresh : NoLoad EM.fresh := by intro st b st1 e; cases e; exact ⟨rfl, fun _ => rfl⟩
theorem NoLoad.setGlobal (g : Str) (v : Value) : NoLoad (setGlobal g v) := by intro st b st1 e; cases e; exact ⟨rfl, fun _ => rfl⟩
theorem NoLoad.ite {c : Prop} [Decidable c] {a b : EM α} (h1 : NoLoad a) (h2 : NoLoad b) : NoLoad (if c then a else b) := by
  split <;> assumption
theorem NoLoad.depthCheck (file : Option Str) (d : Nat) : NoLoad (depthCheck file d) := .ite (.fail _ _) (.pure _)
theorem NoLoad.keywordId (k : IncKind) : NoLoad (EM.keywordId k) := by
  intro st i st1 e
  rw [keywordId_eq] at e
  split at e
  · rename_i hk
    cases e
    exact ⟨rfl, fun c => by rw [keywordId_eq]; simp only [hk]⟩
  · rename_i hk
    cases e
    exact ⟨rfl, fun c => by rw [keywordId_eq]; simp only [hk]⟩

theorem NoLoad.checkNew (file : Option Str) (ps : List Pair) (par : Option Obj) (tg : Target) : NoLoad (checkNew file ps par tg) := by
  cases tg with
  | field f => exact .ite (.fail _ _) (.pure _)
  | parent => exact .ite (.fail _ _) (.pure _)
  | global g =>
    intro st a st1 e
    simp only [Over.checkNew] at e
    split at e <;> cases e
    rename_i h
    exact ⟨rfl, fun c => by simp only [Over.checkNew, h]⟩

variable {fs : FS} {file : Option Str} {stack : List Str} {load : Loader}

theorem NoLoad.name (ps : List Pair) (x : Str) : NoLoad (evalName file ps x) := by
  have kw : ∀ k, NoLoad (do let i ← EM.keywordId k; Pure.pure (.obj (.mk i [] none)) : EM Value) := fun k =>
    .bind (.keywordId k) fun _ => .pure _
  unfold evalName
  refine .ite (.pure _) (.ite (.pure _) (.ite (.pure _) (.ite (kw _) (.ite (kw _) (.ite (kw _) (.ite (kw _) (.ite (.fail _ _) (.ite ?_ ?_))))))))
  · intro st a st1 e
    unfold evalGlobal at e
    split at e <;> cases e
    rename_i h
    exact ⟨rfl, fun c => by simp only [evalGlobal, h]⟩
  · split
    · exact .pure _
    · exact .fail _ _

theorem NoLoad.applyUn (op : UnOp) (v : Value) : NoLoad (applyUn file op v) := by
  unfold Over.applyUn
  split <;> first | exact .pure _ | exact .fail _ _

theorem NoLoad.applyBin (op : BinOp) (a b : Value) : NoLoad (applyBin file op a b) := by
  unfold Over.applyBin
  split
  · exact .pure _
  · exact .bind .fresh fun _ => .pure _
  · exact .fail _ _
  · exact .fail _ _

theorem NoLoad.sumLeft : ∀ (l : List (BinOp × Value)) (v : Value), NoLoad (sumLeft file v l)
  | [], _ => .pure _
  | (_, _) :: l, _ => .bind (.applyBin _ _ _) fun u => NoLoad.sumLeft l u

theorem NoLoad.index (oob : Nat → OverError) (vs : List Value) (i : Value) : NoLoad (evalIndex file oob vs i) := by
  unfold evalIndex
  split
  · refine .ite ?_ (.fail _ _)
    split
    · exact .pure _
    · exact .fail _ _
  · exact .fail _ _

mutual
theorem evalTerm_noLoad : ∀ (t : Term), t.includeFree = true → ∀ (ps : List Pair) (d : Nat), NoLoad (evalTerm fs file stack load t ps d)
  | .str _, _, _, _ => .pure _
  | .int _, _, _, _ => .pure _
  | .frac _, _, _, _ => .pure _
  | .name x, _, ps, _ => .name ps x
  | .dot x t, h, ps, d => by
    simp only [Term.includeFree] at h
    simp only [evalTerm]
    refine .bind (.name _ _) fun v => ?_
    cases v with
    | arr i ty vs => exact .bind (evalTerm_noLoad t h _ _) fun _ => .index _ _ _
    | tup i ty vs => exact .bind (evalTerm_noLoad t h _ _) fun _ => .index _ _ _
    | obj o => exact .ite (.fail _ _) (.ite (.fail _ _) (evalTerm_noLoad t h _ _))
    | _ => exact .fail _ _
  | .neg t, h, ps, d => by
    simp only [evalTerm]
    exact .bind (evalTerm_noLoad t (by simpa only [Term.includeFree] using h) _ _) fun _ => .applyUn _ _
  | .pos t, h, ps, d => by
    simp only [evalTerm]
    exact .bind (evalTerm_noLoad t (by simpa only [Term.includeFree] using h) _ _) fun _ => .applyUn _ _
  | .arr es, h, ps, d => by
    simp only [evalTerm]
    exact .bind (.depthCheck _ _) fun _ => .bind (evalElems_noLoad es (by simpa only [Term.includeFree] using h) _ _ _) fun _ =>
      .bind .fresh fun _ => .pure _
  | .tup es, h, ps, d => by
    simp only [evalTerm]
    exact .bind (.depthCheck _ _) fun _ => .bind (evalItems_noLoad es (by simpa only [Term.includeFree] using h) _ _) fun _ =>
      .bind .fresh fun _ => .pure _
  | .obj fds, h, ps, d => by
    simp only [evalTerm]
    exact .bind (.depthCheck _ _) fun _ => .bind (evalFields_noLoad fds (by simpa only [Term.includeFree] using h) _ _ _) fun _ =>
      .bind .fresh fun _ => .pure _
  | .incl _, h, _, _ => by simp [Term.includeFree] at h
  | .inclAs _ _, h, _, _ => by simp [Term.includeFree] at h
termination_by structural t => t
theorem evalExpr_noLoad : ∀ (e : Expr), e.includeFree = true → ∀ (ps : List Pair) (d : Nat), NoLoad (evalExpr fs file stack load e ps d)
  | .mk t r, h, ps, d => by
    simp only [Expr.includeFree, Bool.and_eq_true] at h
    simp only [evalExpr]
    exact .bind (evalTerm_noLoad t h.1 _ _) fun _ => .bind (evalChain_noLoad r h.2 _ _ _) fun _ => .sumLeft _ _
termination_by structural t => t
theorem evalChain_noLoad : ∀ (r : List OpTerm), OpTerm.includeFreeL r = true → ∀ (v : Value) (ps : List Pair) (d : Nat),
    NoLoad (evalChain fs file stack load r v ps d)
  | [], _, _, _, _ => .pure _
  | .mk op t :: r, h, v, ps, d => by
    simp only [OpTerm.includeFreeL, Bool.and_eq_true] at h
    simp only [evalChain]
    exact .bind (evalTerm_noLoad t h.1 _ _) fun _ => .ite (.bind (.applyBin _ _ _) fun _ => evalChain_noLoad r h.2 _ _ _)
      (.bind (evalChain_noLoad r h.2 _ _ _) fun _ => .pure _)
termination_by structural t => t
theorem evalElems_noLoad : ∀ (es : List Expr), Expr.includeFreeL es = true → ∀ (ps : List Pair) (d : Nat) (t : Ty),
    NoLoad (evalElems fs file stack load es ps d t)
  | [], _, _, _, _ => .pure _
  | e :: es, h, ps, d, t => by
    simp only [Expr.includeFreeL, Bool.and_eq_true] at h
    simp only [evalElems]
    refine .bind (evalExpr_noLoad e h.1 _ _) fun v => ?_
    cases Ty.mostSpecific t v.getType with
    | none => exact .fail _ _
    | some u => exact .bind (evalElems_noLoad es h.2 _ _ _) fun _ => .pure _
termination_by structural t => t
theorem evalItems_noLoad : ∀ (es : List Expr), Expr.includeFreeL es = true → ∀ (ps : List Pair) (d : Nat),
    NoLoad (evalItems fs file stack load es ps d)
  | [], _, _, _ => .pure _
  | e :: es, h, ps, d => by
    simp only [Expr.includeFreeL, Bool.and_eq_true] at h
    simp only [evalItems]
    exact .bind (evalExpr_noLoad e h.1 _ _) fun _ => .bind (evalItems_noLoad es h.2 _ _) fun _ => .pure _
termination_by structural t => t
theorem evalFields_noLoad : ∀ (fds : List Field), Field.includeFreeL fds = true → ∀ (d : Nat) (ps : List Pair) (par : Option Obj),
    NoLoad (evalFields fs file stack load fds d ps par)
  | [], _, _, _, _ => .pure _
  | .mk tg e :: fds, h, d, ps, par => by
    simp only [Field.includeFreeL, Bool.and_eq_true] at h
    rw [evalFields_head]
    refine .bind (.checkNew _ _ _ _) fun _ => .bind (evalExpr_noLoad e h.1 _ _) fun v => ?_
    unfold fieldsCont
    cases tg with
    | field f => exact evalFields_noLoad fds h.2 _ _ _
    | global g => exact .bind (.setGlobal _ _) fun _ => evalFields_noLoad fds h.2 _ _ _
    | parent =>
      cases v <;> first | exact .fail _ _ | exact evalFields_noLoad fds h.2 _ _ _
termination_by structural t => t
end

end

theorem Field.levelsL_append : ∀ A B : List Field, Field.levelsL (A ++ B) = max (Field.levelsL A) (Field.levelsL B)
  | [], B => by simp [Field.levelsL]
  | .mk tg e :: A, B => by simp only [List.cons_append, Field.levelsL, Field.levelsL_append A B, Nat.max_assoc]

section
variable [Unicode] {S : IncKind → Nat} {fs : FS} {file : Option Str} {stack : List Str}

/-- The definition of `g`, and what follows from it. -/
theorem define_step {g : Str} {e : Expr} {n : Nat} {B : List Field} {d : Nat} {ps ps' : List Pair} {par par' : Option Obj} {st st' : ESt} (w : Warm S st.rt)
    (he : e.includeFree = true) (hg : e.definesNoGlobal = true)
    (h : evalFields fs file stack (loadN fs n) (.mk (.global g) e :: B) d ps par st = .ok ((ps', par'), st')) :
    ∃ st1, RelSt S (· = g) st1 st ∧ RelSt S (· = g) st st1 ∧
      ∀ B', evalFields fs file stack (loadN fs n) (.mk (.global g) e :: B') d ps par st = evalFields fs file stack (loadN fs n) B' d ps par st1 := by
  have key : ∀ B', evalFields fs file stack (loadN fs n) (.mk (.global g) e :: B') d ps par st = (match checkNew file ps par (.global g) st with
      | .error k => .error k
      | .ok (_, st1) => match evalExpr fs file stack (loadN fs n) e ps d st1 with
        | .error k => .error k
        | .ok (v, st2) => evalFields fs file stack (loadN fs n) B' d ps par { st2 with globals := StrMap.insert st2.globals g v }) := by
    intro B'
    rw [evalFields_head]
    show EM.bind _ (fun _ => EM.bind _ _) st = _
    unfold EM.bind
    cases checkNew file ps par (.global g) st with
    | error k => rfl
    | ok x =>
      dsimp only
      cases evalExpr fs file stack (loadN fs n) e ps d x.2 with
      | error k => rfl
      | ok y => rfl
  have hB := h
  rw [key] at hB
  cases hc : checkNew file ps par (.global g) st with
  | error k => rw [hc] at hB; cases hB
  | ok x =>
    obtain ⟨⟨⟩, st1⟩ := x
    have h1 : st1 = st := by
      simp only [checkNew] at hc
      split at hc <;> cases hc
      rfl
    subst h1
    rw [hc] at hB
    dsimp only at hB
    cases hv : evalExpr fs file stack (loadN fs n) e ps d st1 with
    | error k => rw [hv] at hB; cases hB
    | ok y =>
      obtain ⟨v, st2⟩ := y
      have hl := (loadN_sim (S := S) (fs := fs) n).later
      obtain ⟨w2, -, g2, -⟩ := evalExpr_again (fs := fs) (file := file) (stack := stack) hl e hg (ps := ps) (ps' := ps) (d := d) (d' := d) (.inl (ScopeLe.refl _)) st1 v st2 w hv
      have c2 := (evalExpr_noLoad e he ps d st1 v st2 hv).1
      have hk : ∀ B', evalFields fs file stack (loadN fs n) (.mk (.global g) e :: B') d ps par st1 =
          evalFields fs file stack (loadN fs n) B' d ps par { st2 with globals := StrMap.insert st2.globals g v } := by
        intro B'
        rw [key, hc]
        dsimp only
        rw [hv]
      refine ⟨{ st2 with globals := StrMap.insert st2.globals g v }, ⟨fun x hx => ?_, fun x => ?_, w2, w⟩, ⟨fun x hx => ?_, fun x => ?_, w, w2⟩, hk⟩
      · rw [StrMap.get_insert_ne _ _ hx, g2]; exact LikeGet.refl _
      · show LikeGet S (StrMap.get st2.cache x) _; rw [c2]; exact LikeGet.refl _
      · rw [StrMap.get_insert_ne _ _ hx, g2]; exact LikeGet.refl _
      · show LikeGet S _ (StrMap.get st2.cache x); rw [c2]; exact LikeGet.refl _

/-- A document in two parts. -/
theorem evalDoc_parts {load : Loader} {A B : List Field} {st : ESt} : evalDoc fs file stack load (A ++ B) st =
    match evalFields fs file stack load A 1 [] none st with
    | .error k => .error k
    | .ok (x, st1) => match evalFields fs file stack load B 1 x.1 x.2 st1 with
      | .error k => .error k
      | .ok (y, st2) => .ok (.mk st2.rt.curId y.1 y.2, { st2 with rt := st2.rt.next }) := by
  unfold evalDoc
  rw [evalFields_split]
  show EM.bind (EM.bind _ _) _ st = _
  unfold EM.bind
  cases evalFields fs file stack load A 1 [] none st with
  | error k => rfl
  | ok x =>
    dsimp only
    cases evalFields fs file stack load B 1 x.1.1 x.1.2 x.2 with
    | error k => rfl
    | ok y => rfl

omit [Unicode] in
theorem likeObj_new {q q' : List Pair} {r r' : Option Obj} {rt rt' : Rt} (w : Warm S rt) (w' : Warm S rt') (h : LikeFields S (q, r) (q', r')) :
    LikeObj S (.mk rt.curId q r) (.mk rt'.curId q' r') := by
  show Obj.mapIds _ _ = Obj.mapIds _ _
  simp only [Obj.mapIds, w.fresh, w'.fresh, show Pair.mapIdsL _ q = _ from h.1, show Obj.mapIdsP _ r = _ from h.2]

/-- Evaluation keeps the keyword objects. -/
theorem evalFields_warm {n : Nat} {fds : List Field} {d : Nat} {ps : List Pair} {par : Option Obj} {st st' : ESt} {x : List Pair × Option Obj}
    (w : Warm S st.rt) (h : evalFields fs file stack (loadN fs n) fds d ps par st = .ok (x, st')) : Warm S st'.rt := by
  rcases evalFields_same (D := fun _ => False) (loadN_sim (S := S) (fs := fs) n) fds (ps := ps) (ps' := ps) (par := par) (par' := par) (d := d) (file := file)
    (stack := stack) rfl rfl st st ⟨fun _ _ => LikeGet.refl _, fun _ => LikeGet.refl _, w, w⟩ trivial with
    ⟨f, hf, -⟩ | ⟨e, h1, -⟩ | ⟨a, a', s, s', h1, h2, -, h3, -⟩
  · exact hf.elim
  · rw [h] at h1; cases h1
  · rw [h] at h1; cases h1; exact h3.warm

/-- The definition of an unused global can be left out. -/
theorem meaning_drop {A B B' : List Field} {g : Str} {e : Expr} (he : e.includeFree = true) (hg : e.definesNoGlobal = true)
    (hB : InlDoc (· = g) [] [] B B') {rt : Rt} (w : Warm S rt) {o : Obj} {st : ESt}
    (h : meaning fs file stack (A ++ .mk (.global g) e :: B) rt = .ok (o, st)) :
    meaning fs file stack (A ++ B') rt = .error (.sem file .maxDepth) ∨
      ∃ o' st', meaning fs file stack (A ++ B') rt = .ok (o', st') ∧ LikeObj S o o' := by
  unfold meaning at *
  rw [evalDoc_parts] at *
  cases hA : evalFields fs file stack (loadN fs (fs.nodes.length + 1)) A 1 [] none ⟨[], [], rt⟩ with
  | error k => rw [hA] at h; cases h
  | ok x =>
    obtain ⟨⟨ps, par⟩, st1⟩ := x
    have w1 := evalFields_warm (S := S) w hA
    rw [hA] at h
    dsimp only at *
    cases hD : evalFields fs file stack (loadN fs (fs.nodes.length + 1)) (.mk (.global g) e :: B) 1 ps par st1 with
    | error k => rw [hD] at h; cases h
    | ok y =>
      obtain ⟨⟨ps', par'⟩, st2⟩ := y
      rw [hD] at h
      cases h
      obtain ⟨stg, hr, -, hk⟩ := define_step w1 he hg hD
      rw [hk] at hD
      rcases evalDocFields_inl (D := (· = file)) (fs := fs) (file := file) (stack := stack) rfl (loadN_sim (S := S) (fs.nodes.length + 1)) hB (ps := ps) (ps' := ps)
        (par := par) (par' := par) rfl rfl (Nat.le_refl 1) stg st1 hr KnownDefs.none with ⟨f, hf, h1⟩ | ⟨k, h1, -⟩ | ⟨a, a', s, s', h1, h2, h3, h4, -⟩
      · rw [h1, show f = file from hf]; exact .inl rfl
      · rw [h1] at hD; cases hD
      · rw [h1] at hD
        cases hD
        rw [h2]
        exact .inr ⟨_, _, rfl, likeObj_new h4.warm h4.warm' h3⟩

/-- … and added, when it can be evaluated. -/
theorem meaning_undrop {A B B' : List Field} {g : Str} {e : Expr} (he : e.includeFree = true) (hg : e.definesNoGlobal = true)
    (hB : InlDoc (· = g) [] [] B B') {rt : Rt} (w : Warm S rt) {o q : Obj} {st stq : ESt}
    (hq : meaning fs file stack (A ++ [.mk (.global g) e]) rt = .ok (q, stq))
    (h : meaning fs file stack (A ++ B) rt = .ok (o, st)) :
    meaning fs file stack (A ++ .mk (.global g) e :: B') rt = .error (.sem file .maxDepth) ∨
      ∃ o' st', meaning fs file stack (A ++ .mk (.global g) e :: B') rt = .ok (o', st') ∧ LikeObj S o o' := by
  unfold meaning at *
  rw [evalDoc_parts] at *
  cases hA : evalFields fs file stack (loadN fs (fs.nodes.length + 1)) A 1 [] none ⟨[], [], rt⟩ with
  | error k => rw [hA] at h; cases h
  | ok x =>
    obtain ⟨⟨ps, par⟩, st1⟩ := x
    have w1 := evalFields_warm (S := S) w hA
    rw [hA] at h hq
    dsimp only at *
    cases hD : evalFields fs file stack (loadN fs (fs.nodes.length + 1)) [.mk (.global g) e] 1 ps par st1 with
    | error k => rw [hD] at hq; cases hq
    | ok y =>
      obtain ⟨⟨ps', par'⟩, st2⟩ := y
      obtain ⟨stg, -, hr, hk⟩ := define_step w1 he hg hD
      rw [hk B']
      cases hE : evalFields fs file stack (loadN fs (fs.nodes.length + 1)) B 1 ps par st1 with
      | error k => rw [hE] at h; cases h
      | ok z =>
        obtain ⟨⟨ps2, par2⟩, st3⟩ := z
        rw [hE] at h
        cases h
        rcases evalDocFields_inl (D := (· = file)) (fs := fs) (file := file) (stack := stack) rfl (loadN_sim (S := S) (fs.nodes.length + 1)) hB (ps := ps) (ps' := ps)
          (par := par) (par' := par) rfl rfl (Nat.le_refl 1) st1 stg hr KnownDefs.none with ⟨f, hf, h1⟩ | ⟨k, h1, -⟩ | ⟨a, a', s, s', h1, h2, h3, h4, -⟩
        · rw [h1, show f = file from hf]; exact .inl rfl
        · rw [h1] at hE; cases hE
        · rw [h1] at hE
          cases hE
          rw [h2]
          exact .inr ⟨_, _, rfl, likeObj_new h4.warm h4.warm' h3⟩

omit [Unicode] in
theorem InlFields.doc {U : Str → Prop} : ∀ {Θ Γ : Defs} {fds fds' : List Field}, InlFields U Θ Γ fds fds' → InlDoc U Θ Γ fds fds'
  | _, _, _, _, .nil => .nil
  | _, _, _, _, .cons h1 h2 h3 => .cons h1 h2 h3.doc
  | _, _, _, _, .define h1 h2 h3 h4 => .define h1 h2 h3 h4.doc

end

end Over
