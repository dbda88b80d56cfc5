import Verif.Lemmas.Deep

/-! # Values up to the order of fields: whole documents -/

namespace Over
namespace Deep

section
variable {S : IncKind → Nat} {fs fs' : FS} {file : Option Str} {stack : List Str} {load load' : Loader}

/-- One definition in both runs. -/
theorem fields_cons {tg : Target} {e e' : Expr} {fds fds' : List Field} {d : Nat} {ps ps' : List Pair} {par par' : Option Obj}
    (hp : LikeP S ps ps') (hr : LikeO S par par')
    (he : Sim S (Like S) (evalExpr fs file stack load e ps d) (evalExpr fs' file stack load' e' ps' d))
    (rest : ∀ {ps ps' : List Pair} {par par' : Option Obj}, LikeP S ps ps' → LikeO S par par' →
      Sim S (LikeFields S) (evalFields fs file stack load fds d ps par) (evalFields fs' file stack load' fds' d ps' par')) :
    Sim S (LikeFields S) (evalFields fs file stack load (.mk tg e :: fds) d ps par)
      (evalFields fs' file stack load' (.mk tg e' :: fds') d ps' par') := by
  rw [evalFields_head, evalFields_head]
  refine .bind (checkNew_sim hp hr tg) fun _ _ _ => .bind he fun v v' hv => ?_
  unfold fieldsCont
  cases tg with
  | field f => exact rest (hp.snoc hv f) hr
  | global g => exact .bind (setGlobal_sim g hv) fun _ _ _ => rest hp hr
  | parent =>
    cases hv.form <;> try exact .fail _ _
    rename_i o o' ho
    exact rest hp (show Obj.nrmP _ _ = Obj.nrmP _ _ by simp only [Obj.nrmP, show o.nrm _ = _ from ho])

theorem arr_new {x x' : List Value × Ty} (hx : LikeL S x.1 x'.1 ∧ x.2 = x'.2) :
    Sim S (Like S) (do let i ← EM.fresh; pure (.arr i x.2 x.1) : EM Value) (do let i ← EM.fresh; pure (.arr i x'.2 x'.1) : EM Value) :=
  .bind .fresh fun i j hij => .pure (by
    show Value.nrm _ _ = Value.nrm _ _
    simp only [Value.nrm, hij.1, hij.2, show Value.nrmL _ x.1 = _ from hx.1, hx.2])

theorem tup_new {vs vs' : List Value} (hx : LikeL S vs vs') :
    Sim S (Like S) (do let i ← EM.fresh; pure (.tup i (vs.map Value.getType) vs) : EM Value)
      (do let i ← EM.fresh; pure (.tup i (vs'.map Value.getType) vs') : EM Value) :=
  .bind .fresh fun i j hij => .pure (by
    show Value.nrm _ _ = Value.nrm _ _
    simp only [Value.nrm, hij.1, hij.2, show Value.nrmL _ vs = _ from hx, hx.getType])

theorem obj_new {x x' : List Pair × Option Obj} (hx : LikeFields S x x') :
    Sim S (LikeObj S) (do let i ← EM.fresh; pure (.mk i x.1 x.2) : EM Obj) (do let i ← EM.fresh; pure (.mk i x'.1 x'.2) : EM Obj) :=
  .bind .fresh fun i j hij => .pure (by
    show Obj.nrm _ _ = Obj.nrm _ _
    simp only [Obj.nrm, hij.1, hij.2, show Pair.nrmL _ x.1 = _ from hx.1, show Obj.nrmP _ x.2 = _ from hx.2])

theorem objV_new {x x' : List Pair × Option Obj} (hx : LikeFields S x x') :
    Sim S (Like S) (do let i ← EM.fresh; pure (.obj (.mk i x.1 x.2)) : EM Value) (do let i ← EM.fresh; pure (.obj (.mk i x'.1 x'.2)) : EM Value) :=
  .bind .fresh fun i j hij => .pure (by
    show Value.nrm _ _ = Value.nrm _ _
    simp only [Value.nrm, Obj.nrm, hij.1, hij.2, show Pair.nrmL _ x.1 = _ from hx.1, show Obj.nrmP _ x.2 = _ from hx.2])

/-- The includes of both runs correspond. -/
abbrev InclAll (S : IncKind → Nat) (fs fs' : FS) (file : Option Str) (stack : List Str) (load load' : Loader) : Prop :=
  ∀ kind p, Sim S (Like S) (evalInclude fs file stack load kind p) (evalInclude fs' file stack load' kind p)

mutual
theorem evalTerm_same (hi : InclAll S fs fs' file stack load load') : ∀ (t : Term) {ps ps' : List Pair} {d : Nat}, LikeP S ps ps' →
    Sim S (Like S) (evalTerm fs file stack load t ps d) (evalTerm fs' file stack load' t ps' d)
  | .str _, _, _, _, _ => .pure rfl
  | .int _, _, _, _, _ => .pure rfl
  | .frac _, _, _, _, _ => .pure rfl
  | .name _, _, _, _, hp => evalName_sim hp
  | .dot x t, ps, ps', d, hp => by
    simp only [evalTerm]
    have ih : ∀ {qs qs' : List Pair}, LikeP S qs qs' → Sim S (Like S)
        (evalTerm fs file stack load t qs (d + 1)) (evalTerm fs' file stack load' t qs' (d + 1)) := fun hp => evalTerm_same hi t hp
    refine .bind (evalName_sim hp) (fun v v' hv => ?_)
    cases hv.form with
    | arr i i' ty vs vs' hvs => exact .bind (ih hp) (fun i i' hi => evalIndex_sim _ hvs hi)
    | tup i i' ty vs vs' hvs => exact .bind (ih hp) (fun i i' hi => evalIndex_sim _ hvs hi)
    | obj o o' ho => exact .ite Iff.rfl (.fail _ _) (.ite Iff.rfl (.fail _ _) (ih ho.pairs))
    | _ => exact .fail _ _
  | .neg t, ps, ps', d, hp => by
    simp only [evalTerm]
    exact .bind (evalTerm_same hi t hp) (fun v v' hv => applyUn_sim _ hv)
  | .pos t, ps, ps', d, hp => by
    simp only [evalTerm]
    exact .bind (evalTerm_same hi t hp) (fun v v' hv => applyUn_sim _ hv)
  | .arr es, ps, ps', d, hp => by
    simp only [evalTerm]
    exact .bind (.depthCheck _ _) (fun _ _ _ => .bind (evalElems_same hi es hp) (fun x x' hx => arr_new hx))
  | .tup es, ps, ps', d, hp => by
    simp only [evalTerm]
    exact .bind (.depthCheck _ _) (fun _ _ _ => .bind (evalItems_same hi es hp) (fun x x' hx => tup_new hx))
  | .obj fds, ps, ps', d, hp => by
    simp only [evalTerm]
    exact .bind (.depthCheck _ _) (fun _ _ _ => .bind
      (evalFields_same hi fds (ps := []) (ps' := []) (par := none) (par' := none) rfl rfl) (fun x x' hx => objV_new hx))
  | .incl e, ps, ps', d, hp => by
    simp only [evalTerm]
    refine .bind (.depthCheck _ _) (fun _ _ _ => .bind (evalExpr_same hi e hp) (fun v v' hv => .bind (evalKeyword_sim hv) (fun k k' hk => ?_)))
    subst hk
    cases k with
    | some k => exact .fail _ _
    | none => cases hv.form <;> first | exact .fail _ _ | exact hi _ _
  | .inclAs k e, ps, ps', d, hp => by
    simp only [evalTerm]
    refine .bind (.depthCheck _ _) (fun _ _ _ => .bind (evalExpr_same hi k hp) (fun v v' hv => .bind (evalKeyword_sim hv) (fun k k' hk => ?_)))
    subst hk
    cases k with
    | none => exact .fail _ _
    | some k =>
      refine .bind (evalExpr_same hi e hp) (fun w w' hw => ?_)
      cases hw.form <;> first | exact .fail _ _ | exact hi _ _
termination_by structural t => t
theorem evalExpr_same (hi : InclAll S fs fs' file stack load load') : ∀ (e : Expr) {ps ps' : List Pair} {d : Nat}, LikeP S ps ps' →
    Sim S (Like S) (evalExpr fs file stack load e ps d) (evalExpr fs' file stack load' e ps' d)
  | .mk t r, ps, ps', d, hp => by
    simp only [evalExpr]
    exact .bind (evalTerm_same hi t hp) (fun v v' hv => .bind (evalChain_same hi r hv hp) (fun x x' hx => sumLeft_sim hx.2 hx.1))
termination_by structural t => t
theorem evalChain_same (hi : InclAll S fs fs' file stack load load') : ∀ (r : List OpTerm) {v v' : Value} {ps ps' : List Pair} {d : Nat}, Like S v v' → LikeP S ps ps' →
    Sim S (LikeChain S) (evalChain fs file stack load r v ps d) (evalChain fs' file stack load' r v' ps' d)
  | [], _, _, _, _, _, hv, _ => .pure ⟨hv, .nil⟩
  | .mk op t :: r, v, v', ps, ps', d, hv, hp => by
    simp only [evalChain]
    refine .bind (evalTerm_same hi t hp) (fun w w' hw => .ite Iff.rfl ?_ ?_)
    · exact .bind (applyBin_sim _ hv hw) (fun u u' hu => evalChain_same hi r hu hp)
    · exact .bind (evalChain_same hi r hw hp) (fun x x' hx => .pure ⟨hv, .cons hx.1 hx.2⟩)
termination_by structural t => t
theorem evalElems_same (hi : InclAll S fs fs' file stack load load') : ∀ (es : List Expr) {ps ps' : List Pair} {d : Nat} {t : Ty}, LikeP S ps ps' →
    Sim S (fun x y => LikeL S x.1 y.1 ∧ x.2 = y.2) (evalElems fs file stack load es ps d t) (evalElems fs' file stack load' es ps' d t)
  | [], _, _, _, _, _ => .pure ⟨rfl, rfl⟩
  | e :: es, ps, ps', d, t, hp => by
    simp only [evalElems]
    refine .bind (evalExpr_same hi e hp) (fun v v' hv => ?_)
    rw [← hv.getType]
    cases Ty.mostSpecific t v.getType with
    | none => exact .fail _ _
    | some u => exact .bind (evalElems_same hi es hp) (fun x x' hx => .pure ⟨.cons hv hx.1, hx.2⟩)
termination_by structural t => t
theorem evalItems_same (hi : InclAll S fs fs' file stack load load') : ∀ (es : List Expr) {ps ps' : List Pair} {d : Nat}, LikeP S ps ps' →
    Sim S (LikeL S) (evalItems fs file stack load es ps d) (evalItems fs' file stack load' es ps' d)
  | [], _, _, _, _ => .pure rfl
  | e :: es, ps, ps', d, hp => by
    simp only [evalItems]
    exact .bind (evalExpr_same hi e hp) (fun v v' hv => .bind (evalItems_same hi es hp) (fun x x' hx => .pure (.cons hv hx)))
termination_by structural t => t
theorem evalFields_same (hi : InclAll S fs fs' file stack load load') : ∀ (fds : List Field) {ps ps' : List Pair} {par par' : Option Obj} {d : Nat},
    LikeP S ps ps' → LikeO S par par' →
    Sim S (LikeFields S) (evalFields fs file stack load fds d ps par) (evalFields fs' file stack load' fds d ps' par')
  | [], _, _, _, _, _, hp, hr => .pure ⟨hp, hr⟩
  | .mk _ e :: fds, _, _, _, _, _, hp, hr => fields_cons hp hr (evalExpr_same hi e hp) (fun hp hr => evalFields_same hi fds hp hr)
termination_by structural t => t
end

theorem evalDoc_same (hi : InclAll S fs fs' file stack load load') (d : List Field) :
    Sim S (LikeObj S) (evalDoc fs file stack load d) (evalDoc fs' file stack load' d) :=
  .bind (evalFields_same hi d (ps := []) (ps' := []) (par := none) (par' := none) rfl rfl) (fun _ _ hx => obj_new hx)

theorem evalArrFile_same (hi : InclAll S fs fs' file stack load load') (es : List Expr) :
    Sim S (Like S) (evalArrFile fs file stack load es) (evalArrFile fs' file stack load' es) :=
  .bind (evalElems_same hi es (ps := []) (ps' := []) rfl) (fun _ _ hx => arr_new hx)

theorem evalTupFile_same (hi : InclAll S fs fs' file stack load load') (es : List Expr) :
    Sim S (Like S) (evalTupFile fs file stack load es) (evalTupFile fs' file stack load' es) :=
  .bind (evalItems_same hi es (ps := []) (ps' := []) rfl) (fun _ _ hx => tup_new hx)

/-- An include, when the loaders correspond. -/
theorem evalInclude_sim (hres : fs'.resolve = fs.resolve) (hutf : fs'.utf8 = fs.utf8) (hfile : ∀ p, fs'.isFile p = fs.isFile p) (kind : IncKind)
    (p : Str) (hl : ∀ stack, Sim S (Like S) (load stack kind (meantIn file p)) (load' stack kind (meantIn file p))) :
    Sim S (Like S) (evalInclude fs file stack load kind p) (evalInclude fs' file stack load' kind p) := by
  rw [evalInclude_def, evalInclude_def, hres, hutf, hfile]
  cases fs.resolve (meantIn file p) with
  | none => exact .fail _ _
  | some full =>
    refine .ite Iff.rfl (.fail _ _) (.ite Iff.rfl (.fail _ _) ?_)
    intro st st' a st1 hr e
    unfold evalCached at *
    rcases (hr.cache full).cases with ⟨h1, h2⟩ | ⟨v, v', h1, h2, h3⟩
    · rw [h1] at e
      rw [h2]
      simp only at e ⊢
      cases hm : load (full :: stack) kind (meantIn file p) st with
      | error k => rw [hm] at e; cases e
      | ok x =>
        obtain ⟨v, s⟩ := x
        rw [hm] at e
        cases e
        obtain ⟨v', s', h3, h4, h5⟩ := hl _ st st' _ _ hr hm
        rw [h3]
        exact ⟨v', _, rfl, h4, h5.globals, fun x => LikeGet.insert h4 _ _ (h5.cache x), h5.warm, h5.warm'⟩
    · rw [h1] at e
      rw [h2]
      cases e
      exact ⟨v', st', rfl, h3, hr⟩

end

section
variable [Unicode] {S : IncKind → Nat} {fs : FS}

/-- The loaders correspond. -/
abbrev LoadAll (S : IncKind → Nat) (load load' : Loader) : Prop :=
  ∀ kind path stack, Sim S (Like S) (load stack kind path) (load' stack kind path)

omit [Unicode] in
theorem inclAll {load load' : Loader} (hl : LoadAll S load load') (file : Option Str) (stack : List Str) : InclAll S fs fs file stack load load' :=
  fun kind _ => evalInclude_sim rfl rfl (fun _ => rfl) kind _ (hl kind _)

theorem loadN_all : ∀ n : Nat, LoadAll S (loadN fs n) (loadN fs n)
  | 0 => fun _ _ _ => .error _
  | n + 1 => by
    intro kind path stack
    have ih := inclAll (fs := fs) (loadN_all n) (some path) stack
    cases hr : fs.read path with
    | error msg => rw [loadN_io hr]; exact .error _
    | ok text =>
      by_cases hd : FileText kind text
      · cases kind with
        | str => rw [loadN_str hr]; exact .pure rfl
        | obj =>
          rw [loadN_obj hr _ _ hd]
          exact ownGlobals_sim (.bind (evalDoc_same ih _) fun o o' ho => .pure ho)
        | arr => rw [loadN_arr hr _ _ hd]; exact ownGlobals_sim (evalArrFile_same ih _)
        | tup => rw [loadN_tup hr _ _ hd]; exact ownGlobals_sim (evalTupFile_same ih _)
      · rw [loadN_malformed hr _ _ hd]; exact .error _

omit [Unicode] in
theorem _root_.Over.ReTerm.isNumber {t t' : Term} (h : ReTerm t t') : t.isNumber = t'.isNumber ∧ t.isGlobal = t'.isGlobal := by
  cases h <;> exact ⟨rfl, rfl⟩

variable {file : Option Str} {stack : List Str}

mutual
/-- Definitions are exchanged somewhere inside. -/
theorem evalTerm_re (n : Nat) : ∀ (t : Term) {t' : Term}, ReTerm t t' → ∀ {ps ps' : List Pair} {d : Nat}, LikeP S ps ps' →
    Sim S (Like S) (evalTerm fs file stack (loadN fs n) t ps d) (evalTerm fs file stack (loadN fs n) t' ps' d)
  | t, _, .same _, _, _, _, hp => evalTerm_same (inclAll (loadN_all n) _ _) t hp
  | .dot x t, _, .dot h, ps, ps', d, hp => by
    simp only [evalTerm]
    have ih := fun {qs qs' : List Pair} => evalTerm_re n t h (ps := qs) (ps' := qs') (d := d + 1)
    refine .bind (evalName_sim hp) (fun v v' hv => ?_)
    cases hv.form with
    | arr i i' ty vs vs' hvs => exact .bind (ih hp) (fun i i' hi => evalIndex_sim _ hvs hi)
    | tup i i' ty vs vs' hvs => exact .bind (ih hp) (fun i i' hi => evalIndex_sim _ hvs hi)
    | obj o o' ho => exact .ite (by rw [h.isNumber.1]) (.fail _ _) (.ite (by rw [h.isNumber.2]) (.fail _ _) (ih ho.pairs))
    | _ => exact .fail _ _
  | .neg t, _, .neg h, ps, ps', d, hp => by
    simp only [evalTerm]
    exact .bind (evalTerm_re n t h hp) (fun v v' hv => applyUn_sim _ hv)
  | .pos t, _, .pos h, ps, ps', d, hp => by
    simp only [evalTerm]
    exact .bind (evalTerm_re n t h hp) (fun v v' hv => applyUn_sim _ hv)
  | .arr es, _, .arr h, ps, ps', d, hp => by
    simp only [evalTerm]
    exact .bind (.depthCheck _ _) (fun _ _ _ => .bind (evalElems_re n es h hp) (fun x x' hx => arr_new hx))
  | .tup es, _, .tup h, ps, ps', d, hp => by
    simp only [evalTerm]
    exact .bind (.depthCheck _ _) (fun _ _ _ => .bind (evalItems_re n es h hp) (fun x x' hx => tup_new hx))
  | .obj fds, _, .obj h, ps, ps', d, hp => by
    simp only [evalTerm]
    exact .bind (.depthCheck _ _) (fun _ _ _ => .bind
      (evalFields_re n fds h (ps := []) (ps' := []) (par := none) (par' := none) rfl rfl) (fun x x' hx => objV_new hx))
  | .incl e, _, .incl h, ps, ps', d, hp => by
    simp only [evalTerm]
    refine .bind (.depthCheck _ _) (fun _ _ _ => .bind (evalExpr_re n e h hp) (fun v v' hv => .bind (evalKeyword_sim hv) (fun k k' hk => ?_)))
    subst hk
    cases k with
    | some k => exact .fail _ _
    | none => cases hv.form <;> first | exact .fail _ _ | exact inclAll (loadN_all n) _ _ _ _
  | .inclAs k e, _, .inclAs h h', ps, ps', d, hp => by
    simp only [evalTerm]
    refine .bind (.depthCheck _ _) (fun _ _ _ => .bind (evalExpr_re n k h hp) (fun v v' hv => .bind (evalKeyword_sim hv) (fun k k' hk => ?_)))
    subst hk
    cases k with
    | none => exact .fail _ _
    | some k =>
      refine .bind (evalExpr_re n e h' hp) (fun w w' hw => ?_)
      cases hw.form <;> first | exact .fail _ _ | exact inclAll (loadN_all n) _ _ _ _
termination_by structural t => t
theorem evalExpr_re (n : Nat) : ∀ (e : Expr) {e' : Expr}, ReExpr e e' → ∀ {ps ps' : List Pair} {d : Nat}, LikeP S ps ps' →
    Sim S (Like S) (evalExpr fs file stack (loadN fs n) e ps d) (evalExpr fs file stack (loadN fs n) e' ps' d)
  | .mk t r, _, .mk h h', ps, ps', d, hp => by
    simp only [evalExpr]
    exact .bind (evalTerm_re n t h hp) (fun v v' hv => .bind (evalChain_re n r h' hv hp) (fun x x' hx => sumLeft_sim hx.2 hx.1))
termination_by structural t => t
theorem evalChain_re (n : Nat) : ∀ (r : List OpTerm) {r' : List OpTerm}, ReOps r r' → ∀ {v v' : Value} {ps ps' : List Pair} {d : Nat},
    Like S v v' → LikeP S ps ps' →
    Sim S (LikeChain S) (evalChain fs file stack (loadN fs n) r v ps d) (evalChain fs file stack (loadN fs n) r' v' ps' d)
  | [], _, .nil, _, _, _, _, _, hv, _ => .pure ⟨hv, .nil⟩
  | .mk op t :: r, _, .cons h h', v, v', ps, ps', d, hv, hp => by
    simp only [evalChain]
    refine .bind (evalTerm_re n t h hp) (fun w w' hw => .ite Iff.rfl ?_ ?_)
    · exact .bind (applyBin_sim _ hv hw) (fun u u' hu => evalChain_re n r h' hu hp)
    · exact .bind (evalChain_re n r h' hw hp) (fun x x' hx => .pure ⟨hv, .cons hx.1 hx.2⟩)
termination_by structural t => t
theorem evalElems_re (n : Nat) : ∀ (es : List Expr) {es' : List Expr}, ReItems es es' → ∀ {ps ps' : List Pair} {d : Nat} {t : Ty}, LikeP S ps ps' →
    Sim S (fun x y => LikeL S x.1 y.1 ∧ x.2 = y.2) (evalElems fs file stack (loadN fs n) es ps d t) (evalElems fs file stack (loadN fs n) es' ps' d t)
  | [], _, .nil, _, _, _, _, _ => .pure ⟨rfl, rfl⟩
  | e :: es, _, .cons h h', ps, ps', d, t, hp => by
    simp only [evalElems]
    refine .bind (evalExpr_re n e h hp) (fun v v' hv => ?_)
    rw [← hv.getType]
    cases Ty.mostSpecific t v.getType with
    | none => exact .fail _ _
    | some u => exact .bind (evalElems_re n es h' hp) (fun x x' hx => .pure ⟨.cons hv hx.1, hx.2⟩)
termination_by structural t => t
theorem evalItems_re (n : Nat) : ∀ (es : List Expr) {es' : List Expr}, ReItems es es' → ∀ {ps ps' : List Pair} {d : Nat}, LikeP S ps ps' →
    Sim S (LikeL S) (evalItems fs file stack (loadN fs n) es ps d) (evalItems fs file stack (loadN fs n) es' ps' d)
  | [], _, .nil, _, _, _, _ => .pure rfl
  | e :: es, _, .cons h h', ps, ps', d, hp => by
    simp only [evalItems]
    exact .bind (evalExpr_re n e h hp) (fun v v' hv => .bind (evalItems_re n es h' hp) (fun x x' hx => .pure (.cons hv hx)))
termination_by structural t => t
theorem evalFields_re (n : Nat) : ∀ (fds : List Field) {fds' : List Field}, ReFields fds fds' → ∀ {ps ps' : List Pair} {par par' : Option Obj} {d : Nat},
    LikeP S ps ps' → LikeO S par par' →
    Sim S (LikeFields S) (evalFields fs file stack (loadN fs n) fds d ps par) (evalFields fs file stack (loadN fs n) fds' d ps' par')
  | fds, _, .same _, _, _, _, _, _, hp, hr => evalFields_same (inclAll (loadN_all n) _ _) fds hp hr
  | .mk _ e :: fds, _, .cons h h', _, _, _, _, _, hp, hr => fields_cons hp hr (evalExpr_re n e h hp) (fun hp hr => evalFields_re n fds h' hp hr)
  | .mk tg1 e1 :: .mk tg2 e2 :: B, _, .exchange q1 q2 qi w2 w1, _, _, _, _, _, hp, hr => by
    intro st st' a st1 hst h
    obtain ⟨⟨q, r⟩, s, h1, h2, h3⟩ := evalFields_same (inclAll (loadN_all n) _ _) (.mk tg1 e1 :: .mk tg2 e2 :: B) hp hr st st' a st1 hst h
    obtain ⟨q', r', s', h4, -, -, h5, h6, h7⟩ := evalFields_exchange q1 q2 qi w2 w1 hst.warm' h1
    exact ⟨_, _, h4, ⟨h2.1.trans (likeP_of h5), h2.2.trans (likeO_of h6)⟩, h3.trans (relSt_of h7)⟩
termination_by structural t => t
end

theorem evalDoc_re (n : Nat) {d d' : List Field} (h : ReorderedDeep d d') :
    Sim S (LikeObj S) (evalDoc fs file stack (loadN fs n) d) (evalDoc fs file stack (loadN fs n) d') := by
  induction h with
  | step h => exact .bind (evalFields_re n _ h (ps := []) (ps' := []) (par := none) (par' := none) rfl rfl) (fun _ _ hx => obj_new hx)
  | trans _ _ ih1 ih2 => exact (ih1.trans ih2).mono fun a c ⟨b, h1, h2⟩ => Eq.trans h1 h2

/-- The meanings of two documents. -/
theorem meaning_re {d d' : List Field} (h : ReorderedDeep d d') {rt rt' : Rt} (w : Warm S rt) (w' : Warm S rt') {o : Obj} {st : ESt}
    (hm : meaning fs file stack d rt = .ok (o, st)) : ∃ o' st', meaning fs file stack d' rt' = .ok (o', st') ∧ LikeObj S o o' := by
  obtain ⟨o', st', h1, h2, -⟩ := evalDoc_re (S := S) (fs.nodes.length + 1) h ⟨[], [], rt⟩ ⟨[], [], rt'⟩ o st ⟨fun _ => rfl, fun _ => rfl, w, w'⟩ hm
  exact ⟨o', st', h1, h2⟩

end

end Deep
end Over
