import Verif.Lemmas.Inline2

/-! # The same tree in two runs -/

namespace Over

section
variable {S : IncKind → Nat} {D : Option Str → Prop} {fs : FS} {file : Option Str} {stack : List Str} {load : Loader}

/-- Nothing to keep. -/
theorem lasting_true : Lasting (fun _ => True) := fun _ _ _ _ => trivial

/-- The runs correspond. -/
abbrev SimAll (S : IncKind → Nat) (D : Option Str → Prop) {α β : Type} (Q : α → β → Prop) (m : EM α) (m' : EM β) : Prop :=
  SimBy S D (fun _ => False) (fun _ => True) Q m m'

mutual
theorem evalTerm_same (hl : LoadSim S load) : ∀ (t : Term) {ps ps' : List Pair} {d : Nat}, LikeP S ps ps' →
    SimAll S D (Like S) (evalTerm fs file stack load t ps d) (evalTerm fs file stack load t ps' d)
  | .str _, _, _, _, _ => .of_local (.pure rfl)
  | .int _, _, _, _, _ => .of_local (.pure rfl)
  | .frac _, _, _, _, _ => .of_local (.pure rfl)
  | .name _, _, _, _, hp => evalName_sim hp id
  | .dot x t, ps, ps', d, hp => by
    simp only [evalTerm]
    have ih : ∀ {qs qs' : List Pair}, LikeP S qs qs' → SimAll S D (Like S)
        (evalTerm fs file stack load t qs (d + 1)) (evalTerm fs file stack load t qs' (d + 1)) := fun hp => evalTerm_same hl t hp
    refine .bind lasting_true (evalName_sim hp id) (fun v v' hv => ?_)
    cases hv.form with
    | arr i i' ty vs vs' hvs _ => exact .bind lasting_true (ih hp) (fun i i' hi => .of_local (evalIndex_local _ hvs hi))
    | tup i i' ty vs vs' hvs _ => exact .bind lasting_true (ih hp) (fun i i' hi => .of_local (evalIndex_local _ hvs hi))
    | obj o o' ho => exact .ite Iff.rfl (.fail _ _) (.ite Iff.rfl (.fail _ _) (ih ho.pairs))
    | _ => exact .fail _ _
  | .neg t, ps, ps', d, hp => by
    simp only [evalTerm]
    exact .bind lasting_true (evalTerm_same hl t hp) (fun v v' hv => .of_local (applyUn_local _ hv))
  | .pos t, ps, ps', d, hp => by
    simp only [evalTerm]
    exact .bind lasting_true (evalTerm_same hl t hp) (fun v v' hv => .of_local (applyUn_local _ hv))
  | .arr es, ps, ps', d, hp => by
    simp only [evalTerm]
    refine .bind lasting_true (.depthCheck (Nat.le_refl _) (.inl rfl)) (fun _ _ _ => .bind lasting_true (evalElems_same hl es hp)
      (fun x x' hx => ?_))
    obtain ⟨vs, t⟩ := x
    obtain ⟨vs', t'⟩ := x'
    obtain ⟨h1, rfl⟩ : LikeL S vs vs' ∧ t = t' := hx
    exact .of_local (.bind .fresh fun i j hij => .pure (by
      show Value.mapIds _ _ = Value.mapIds _ _
      simp only [Value.mapIds, hij.1, hij.2, show Value.mapIdsL _ vs = _ from h1]))
  | .tup es, ps, ps', d, hp => by
    simp only [evalTerm]
    refine .bind lasting_true (.depthCheck (Nat.le_refl _) (.inl rfl)) (fun _ _ _ => .bind lasting_true (evalItems_same hl es hp)
      (fun vs vs' hx => ?_))
    exact .of_local (.bind .fresh fun i j hij => .pure (by
      show Value.mapIds _ _ = Value.mapIds _ _
      simp only [Value.mapIds, hij.1, hij.2, show Value.mapIdsL _ vs = _ from hx, hx.getType]))
  | .obj fds, ps, ps', d, hp => by
    simp only [evalTerm]
    refine .bind lasting_true (.depthCheck (Nat.le_refl _) (.inl rfl)) (fun _ _ _ => .bind lasting_true
      (evalFields_same hl fds (ps := []) (ps' := []) (par := none) (par' := none) rfl rfl) (fun x x' hx => ?_))
    obtain ⟨q, r⟩ := x
    obtain ⟨q', r'⟩ := x'
    obtain ⟨h1, h2⟩ : LikeP S q q' ∧ LikeO S r r' := hx
    exact .of_local (.bind .fresh fun i j hij => .pure (by
      show Value.mapIds _ _ = Value.mapIds _ _
      simp only [Value.mapIds, Obj.mapIds, hij.1, hij.2, show Pair.mapIdsL _ q = _ from h1, show Obj.mapIdsP _ r = _ from h2]))
  | .incl e, ps, ps', d, hp => by
    simp only [evalTerm]
    refine .bind lasting_true (.depthCheck (Nat.le_refl _) (.inl rfl)) (fun _ _ _ => .bind lasting_true (evalExpr_same hl e hp)
      (fun v v' hv => .bind lasting_true (.of_local (evalKeyword_local hv)) (fun k k' hk => ?_)))
    subst hk
    cases k with
    | some k => exact .fail _ _
    | none => cases hv.form <;> first | exact .fail _ _ | exact evalInclude_sim hl _ _
  | .inclAs k e, ps, ps', d, hp => by
    simp only [evalTerm]
    refine .bind lasting_true (.depthCheck (Nat.le_refl _) (.inl rfl)) (fun _ _ _ => .bind lasting_true (evalExpr_same hl k hp)
      (fun v v' hv => .bind lasting_true (.of_local (evalKeyword_local hv)) (fun k k' hk => ?_)))
    subst hk
    cases k with
    | none => exact .fail _ _
    | some k =>
      refine .bind lasting_true (evalExpr_same hl e hp) (fun w w' hw => ?_)
      cases hw.form <;> first | exact .fail _ _ | exact evalInclude_sim hl _ _
termination_by structural t => t
theorem evalExpr_same (hl : LoadSim S load) : ∀ (e : Expr) {ps ps' : List Pair} {d : Nat}, LikeP S ps ps' →
    SimAll S D (Like S) (evalExpr fs file stack load e ps d) (evalExpr fs file stack load e ps' d)
  | .mk t r, ps, ps', d, hp => by
    simp only [evalExpr]
    exact .bind lasting_true (evalTerm_same hl t hp) (fun v v' hv => .bind lasting_true (evalChain_same hl r hv hp)
      (fun x x' hx => .of_local (sumLeft_local hx.2 hx.1)))
termination_by structural t => t
theorem evalChain_same (hl : LoadSim S load) : ∀ (r : List OpTerm) {v v' : Value} {ps ps' : List Pair} {d : Nat}, Like S v v' → LikeP S ps ps' →
    SimAll S D (LikeChain S) (evalChain fs file stack load r v ps d) (evalChain fs file stack load r v' ps' d)
  | [], _, _, _, _, _, hv, _ => .of_local (.pure ⟨hv, .nil⟩)
  | .mk op t :: r, v, v', ps, ps', d, hv, hp => by
    simp only [evalChain]
    refine .bind lasting_true (evalTerm_same hl t hp) (fun w w' hw => .ite Iff.rfl ?_ ?_)
    · exact .bind lasting_true (.of_local (applyBin_local _ hv hw)) (fun u u' hu => evalChain_same hl r hu hp)
    · exact .bind lasting_true (evalChain_same hl r hw hp) (fun x x' hx => .of_local (.pure ⟨hv, .cons hx.1 hx.2⟩))
termination_by structural t => t
theorem evalElems_same (hl : LoadSim S load) : ∀ (es : List Expr) {ps ps' : List Pair} {d : Nat} {t : Ty}, LikeP S ps ps' →
    SimAll S D (fun x y => LikeL S x.1 y.1 ∧ x.2 = y.2) (evalElems fs file stack load es ps d t) (evalElems fs file stack load es ps' d t)
  | [], _, _, _, _, _ => .of_local (.pure ⟨rfl, rfl⟩)
  | e :: es, ps, ps', d, t, hp => by
    simp only [evalElems]
    refine .bind lasting_true (evalExpr_same hl e hp) (fun v v' hv => ?_)
    rw [← hv.getType]
    cases Ty.mostSpecific t v.getType with
    | none => exact .fail _ _
    | some u => exact .bind lasting_true (evalElems_same hl es hp) (fun x x' hx => .of_local (.pure ⟨.cons hv hx.1, hx.2⟩))
termination_by structural t => t
theorem evalItems_same (hl : LoadSim S load) : ∀ (es : List Expr) {ps ps' : List Pair} {d : Nat}, LikeP S ps ps' →
    SimAll S D (LikeL S) (evalItems fs file stack load es ps d) (evalItems fs file stack load es ps' d)
  | [], _, _, _, _ => .of_local (.pure rfl)
  | e :: es, ps, ps', d, hp => by
    simp only [evalItems]
    exact .bind lasting_true (evalExpr_same hl e hp) (fun v v' hv => .bind lasting_true (evalItems_same hl es hp)
      (fun x x' hx => .of_local (.pure (.cons hv hx))))
termination_by structural t => t
theorem evalFields_same (hl : LoadSim S load) : ∀ (fds : List Field) {ps ps' : List Pair} {par par' : Option Obj} {d : Nat},
    LikeP S ps ps' → LikeO S par par' →
    SimAll S D (LikeFields S) (evalFields fs file stack load fds d ps par) (evalFields fs file stack load fds d ps' par')
  | [], _, _, _, _, _, hp, hr => .of_local (.pure ⟨hp, hr⟩)
  | .mk _ e :: fds, _, _, _, _, _, hp, hr => fun st st' hst hk =>
    fields_step hp hr (fun _ _ => id) hst (evalExpr_same hl e hp st st' hst hk) fun _ _ _ _ hv h1 h2 _ h4 =>
      cont_sim hp hr (Θ := []) (Γ := []) KnownDefs.none (fun hp hr => (evalFields_same hl fds hp hr).weaken fun _ _ => trivial) hv h1 h2 h4
termination_by structural t => t
end

end

end Over
